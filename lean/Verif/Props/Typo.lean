import Verif.Props.Detect
import Verif.Props.Formats
import Verif.Bech32.Slips
/-!
# Properties C101, C102, C103: texts with a character too many or too few, with a wrong prefix, or in capitals

Helper lemmas first: bytes from bits, the leading bytes of a Base58 text.
-/
set_option autoImplicit false

namespace Cardano.Props
open Cardano Cardano.Addr Cardano.Spec Cardano.Bech32

namespace Typo

/-! ### Bits and bytes -/

theorem bytes_of_bits (n : Nat) : ∀ l : List Bool, l.length = 8 * n → ∃ out : Bytes, out.length = n ∧ bitStream 8 out = l := by
  induction n with
  | zero => intro l h; exact ⟨[], rfl, by rw [List.length_eq_zero_iff.1 (by omega : l.length = 0)]; rfl⟩
  | succ n ih =>
    intro l h
    obtain ⟨out, h1, h2⟩ := ih (l.drop 8) (by rw [List.length_drop]; omega)
    have hl : (l.take 8).length = 8 := by rw [List.length_take]; omega
    have hlt := ofBits_lt (l.take 8)
    rw [hl] at hlt
    refine ⟨UInt8.ofNat (ofBits (l.take 8)) :: out, by simp [h1], ?_⟩
    have : bitsOf 8 (UInt8.ofNat (ofBits (l.take 8))).toNat = l.take 8 := by
      apply ofBits_inj
      · rw [bitsOf_length, hl]
      · rw [ofBits_bitsOf, UInt8.toNat_ofNat']; omega
    show bitsOf 8 _ ++ bitStream 8 out = l
    rw [this, h2, List.take_append_drop]

theorem stream_inj (a b : Bytes) (h : bitStream 8 a = bitStream 8 b) : a = b := by
  have hx : ∀ (c : Bytes), ∀ x ∈ c, x.toNat < 2 ^ 8 := fun c x _ => by have := UInt8.toNat_lt x; simpa using this
  obtain ⟨h1, h2⟩ := (stream_eq_iff 8 8 a b 0 (hx a) (hx b)).1 (by simpa using h)
  exact val_inj 8 a b (hx a) (hx b) (by omega) (by simpa using h2)

theorem stream_append (w : Nat) (a b : Bytes) : bitStream w (a ++ b) = bitStream w a ++ bitStream w b := by
  simp [bitStream]

theorem stream_cons (w : Nat) (a : UInt8) (b : Bytes) : bitStream w (a :: b) = bitsOf w a.toNat ++ bitStream w b := by
  simp [bitStream]

/-- The first two groups determine the first byte. -/
theorem first_byte (x y : UInt8) (vs vs' : Bytes) (h h' : UInt8) (t t' : Bytes)
    (e : convertBits (x :: y :: vs) 5 8 false = .ok (h :: t)) (e' : convertBits (x :: y :: vs') 5 8 false = .ok (h' :: t')) : h = h' := by
  obtain ⟨_, p, _, s⟩ := (C11_regroup_5_to_8 _ _).1 e
  obtain ⟨_, p', _, s'⟩ := (C11_regroup_5_to_8 _ _).1 e'
  rw [stream_cons, stream_cons, stream_cons] at s s'
  rw [← List.append_assoc (bitsOf 5 _), List.append_assoc (bitsOf 8 _)] at s s'
  have a := congrArg (List.take 8) s
  have a' := congrArg (List.take 8) s'
  have l5 : ∀ n, (bitsOf 5 n).length = 5 := bitsOf_length 5
  have l8 : ∀ n, (bitsOf 8 n).length = 8 := bitsOf_length 8
  rw [List.take_append_of_le_length (by simp [l5]), List.take_append_of_le_length (l₁ := bitsOf 8 _) (by simp [l8]),
    List.take_of_length_le (l := bitsOf 8 _) (by simp [l8])] at a a'
  have := a.symm.trans a'
  have := congrArg ofBits this
  rw [ofBits_bitsOf, ofBits_bitsOf] at this
  have l1 := UInt8.toNat_lt h
  have l2 := UInt8.toNat_lt h'
  exact UInt8.toNat_inj.1 (by omega)

/-! ### Base58: length and first bytes of the decoded text -/

theorem digits_fuel (b : Nat) (hb : 1 < b) (f g n : Nat) (hf : n < f) (hg : n < g) : Base58.digits b f n = Base58.digits b g n :=
  Base58.digits_canon b hb _ f n (Base58.digits_lt b (by omega) g n) (fun d t h => Base58.digits_lead b hb g n hg d t h)
    (Base58.digits_val b hb g n hg) hf

theorem natBytes_step (n : Nat) (h : n ≠ 0) : Base58.natBytes n = Base58.natBytes (n / 256) ++ [UInt8.ofNat (n % 256)] := by
  unfold Base58.natBytes
  conv => lhs; unfold Base58.digits
  rw [if_neg h, digits_fuel 256 (by omega) n (n / 256 + 1) (n / 256) (Nat.div_lt_self (by omega) (by omega)) (by omega)]
  simp

/-- The last `m` bytes split off. -/
theorem natBytes_split (m : Nat) : ∀ n, n / 256 ^ m ≠ 0 → ∃ t : Bytes, t.length = m ∧ Base58.natBytes n = Base58.natBytes (n / 256 ^ m) ++ t := by
  induction m with
  | zero => intro n _; exact ⟨[], rfl, by simp⟩
  | succ m ih =>
    intro n h
    have e : n / 256 ^ (m + 1) = n / 256 / 256 ^ m := by rw [Nat.pow_succ, Nat.mul_comm, Nat.div_div_eq_div_mul]
    rw [e] at h ⊢
    obtain ⟨t, h1, h2⟩ := ih (n / 256) h
    refine ⟨t ++ [UInt8.ofNat (n % 256)], by simp [h1], ?_⟩
    rw [natBytes_step n (by rintro rfl; exact h (by simp)), h2, List.append_assoc]

/-- Every character of `s` belongs to the Base58 alphabet. -/
def B58Text (s : Bytes) : Prop := ∀ c ∈ s, c ∈ Base58.alphabet

theorem index_some (c : UInt8) : c ∈ Base58.alphabet ↔ ∃ d, d < 58 ∧ Base58.index c = some d := by
  have : ∀ c : UInt8, (c ∈ Base58.alphabet) = ∃ d : Fin 58, Base58.index c = some d.val := forall_byte (by decide +kernel)
  rw [this c]
  exact ⟨fun ⟨d, h⟩ => ⟨d.val, d.isLt, h⟩, fun ⟨d, h, e⟩ => ⟨⟨d, h⟩, e⟩⟩

theorem index_none (c : UInt8) (h : c ∉ Base58.alphabet) : Base58.index c = none := by
  have : ∀ c : UInt8, c ∉ Base58.alphabet → Base58.index c = none := forall_byte (by decide +kernel)
  exact this c h

theorem value_none (s : Bytes) (h : ¬ B58Text s) : ∀ acc, Base58.value s acc = none := by
  induction s with
  | nil => exact absurd (fun c hc => by simp at hc) h
  | cons c s ih =>
    intro acc
    simp only [Base58.value]
    by_cases hc : c ∈ Base58.alphabet
    · obtain ⟨d, _, e⟩ := (index_some c).1 hc
      rw [e]
      exact ih (fun hs => h fun x hx => by rcases List.mem_cons.1 hx with rfl | hx; exacts [hc, hs x hx]) _
    · rw [index_none c hc]

/-- The number spelt by a text lies between the bounds given by the number read so far. -/
theorem value_some (s : Bytes) (h : B58Text s) : ∀ acc, ∃ n, Base58.value s acc = some n ∧ acc * 58 ^ s.length ≤ n ∧ n < (acc + 1) * 58 ^ s.length := by
  induction s with
  | nil => intro acc; exact ⟨acc, rfl, by simp, by simp⟩
  | cons c s ih =>
    intro acc
    obtain ⟨d, hd, e⟩ := (index_some c).1 (h c List.mem_cons_self)
    obtain ⟨n, h1, h2, h3⟩ := ih (fun x hx => h x (List.mem_cons_of_mem _ hx)) (acc * 58 + d)
    refine ⟨n, by simp only [Base58.value, e]; exact h1, ?_, ?_⟩
    · refine Nat.le_trans ?_ h2
      rw [List.length_cons, Nat.pow_succ, Nat.mul_comm (58 ^ _), ← Nat.mul_assoc]
      exact Nat.mul_le_mul_right _ (by omega)
    · refine Nat.lt_of_lt_of_le h3 ?_
      rw [List.length_cons, Nat.pow_succ, Nat.mul_comm (58 ^ _), ← Nat.mul_assoc]
      exact Nat.mul_le_mul_right _ (by omega)

theorem value_append (a b : Bytes) : ∀ acc n, Base58.value a acc = some n → Base58.value (a ++ b) acc = Base58.value b n := by
  induction a with
  | nil => intro acc n h; cases h; rfl
  | cons c a ih =>
    intro acc n h
    simp only [Base58.value, List.cons_append] at h ⊢
    cases e : Base58.index c with
    | none => rw [e] at h; cases h
    | some d => rw [e] at h; exact ih _ _ h

theorem chr_map_inj (l : Bytes) : ∀ m : Bytes, (∀ v ∈ l, v.toNat < 32) → (∀ v ∈ m, v.toNat < 32) → l.map chr = m.map chr → l = m := by
  induction l with
  | nil => intro m _ _ h; cases m <;> simp_all
  | cons v l ih =>
    intro m hl hm h
    cases m with
    | nil => simp at h
    | cons w m =>
      simp only [List.map_cons, List.cons.injEq] at h
      rw [chr_inj v w (hl v List.mem_cons_self) (hm w List.mem_cons_self) h.1,
        ih m (fun v hv => hl v (List.mem_cons_of_mem _ hv)) (fun v hv => hm v (List.mem_cons_of_mem _ hv)) h.2]

/-- The separator is the last `1`. -/
theorem sep_unique (h h' cs cs' : Bytes) (hn : (49 : UInt8) ∉ cs) (hn' : (49 : UInt8) ∉ cs') (e : h ++ 49 :: cs = h' ++ 49 :: cs') :
    h = h' ∧ cs = cs' := by
  have l := congrArg lastIndex1 e
  rw [lastIndex1_sep _ _ hn, lastIndex1_sep _ _ hn', Option.some.injEq] at l
  obtain ⟨h1, h2⟩ := List.append_inj e l
  exact ⟨h1, by simpa using h2⟩

end Typo

open Typo

/-! ### C101: a character too few or too many -/

/-- **C101 (a character left out).** If one character of the data part of the text of a base, enterprise or reward address is left out, wherever it stands
(and whatever else is changed, as long as no `1` is put in), the text is refused with an error. -/
theorem C101_dropped_character (a : Address) (ha : ShelleyOk a) (hp : ∀ n p s, a ≠ .pointer n p s) :
    ∃ cs, string a = .ok (pfx a ++ 49 :: cs) ∧ ∀ (cs' : Bytes), (49 : UInt8) ∉ cs' → cs'.length + 1 = cs.length →
      ∀ (strict : Bool) (spare : Bytes), ∃ msg, NewAddress strict (pfx a ++ 49 :: cs') spare = .err msg := by
  obtain ⟨cs, h1, hl, hn, _, hd⟩ := Detect.text_shape a ha hp
  refine ⟨cs, h1, fun cs' hn' hl' strict spare => err_of_decode _ _ _ (looks_append _ _ hl) ?_⟩
  have hb : (bytes a).length = 57 ∨ (bytes a).length = 29 := by
    cases a with
    | byron b => exact absurd ha id
    | pointer n p s => exact absurd rfl (hp n p s)
    | base n p s => left; simp [bytes, copyZ]
    | enterprise n p => right; simp [bytes, copyZ]
    | reward n p => right; simp [bytes, copyZ]
  obtain ⟨cs1, vs1, e1, k1, _, m1, _, _, c1, _, _, v1⟩ := Bech32.decode_ok _ _ _ hd
  have : cs1 = cs := by simpa using (List.append_cancel_left e1).symm
  subst this
  have lc1 : cs1.length = vs1.length := by simpa [toLower] using congrArg List.length c1
  obtain ⟨_, _, p1, _, q1, w1, _⟩ := convert_nopad 5 8 (by omega) (by omega) (by omega) _ _ v1
  rw [List.length_take] at w1
  cases hdd : Decode (pfx a ++ 49 :: cs') with
  | err m => exact ⟨m, rfl⟩
  | panic => exact absurd hdd (Bech32.decode_not_panic _)
  | ok r =>
    obtain ⟨h2, d2⟩ := r
    obtain ⟨cs2, vs2, e2, k2, _, m2, _, _, c2, _, _, v2⟩ := Bech32.decode_ok _ _ _ hdd
    have lc2 : cs2.length = vs2.length := by simpa [toLower] using congrArg List.length c2
    have : cs2 = cs' := by
      obtain ⟨rfl, h⟩ := sep_unique _ _ _ _ hn' k2 e2
      exact h.symm
    subst this
    obtain ⟨_, _, p2, _, q2, w2, _⟩ := convert_nopad 5 8 (by omega) (by omega) (by omega) _ _ v2
    rw [List.length_take] at w2
    omega

/-- **C101 (partial: any number of characters too few or too many).** A text that begins like the text of an enterprise or reward address, prefix and first two data
characters, and has another number of data characters is refused with an error (unless nothing but a checksum is left, when a valid one makes the parser panic, C06). Missing: base addresses, for which added characters can go unnoticed
(`C101_added_unnoticed`), and changes of the first two data characters, which can turn the text into one for another type of address. -/
theorem C101_wrong_length_partial (a : Address) (ha : ShelleyOk a) (ht : (∃ n p, a = .enterprise n p) ∨ (∃ n s, a = .reward n s)) :
    ∃ cs, string a = .ok (pfx a ++ 49 :: cs) ∧ cs.length = 53 ∧ ∀ (cs' : Bytes), (49 : UInt8) ∉ cs' → cs'.length ≠ 53 → cs'.take 2 = cs.take 2 →
      ∀ (strict : Bool) (spare : Bytes), cs'.length ≠ 6 → ∃ msg, NewAddress strict (pfx a ++ 49 :: cs') spare = .err msg := by
  obtain ⟨cs, h1, hl, hn, _, hd⟩ := Detect.text_shape a ha (by rcases ht with ⟨n, p, rfl⟩ | ⟨n, p, rfl⟩ <;> intros <;> simp)
  have hb : (bytes a).length = 29 := by
    rcases ht with ⟨n, p, rfl⟩ | ⟨n, p, rfl⟩ <;> simp [bytes, copyZ]
  obtain ⟨cs1, vs1, e1, k1, _, m1, _, _, c1, _, _, v1⟩ := Bech32.decode_ok _ _ _ hd
  have : cs1 = cs := by simpa using (List.append_cancel_left e1).symm
  subst this
  have lc1 : cs1.length = vs1.length := by simpa [toLower] using congrArg List.length c1
  obtain ⟨_, _, p1, _, q1, w1, _⟩ := convert_nopad 5 8 (by omega) (by omega) (by omega) _ _ v1
  rw [List.length_take] at w1
  refine ⟨cs1, h1, by omega, fun cs' hn' hl' h2 strict spare h10 => ?_⟩
  rw [newAddress_bech32 _ _ _ (looks_append _ _ hl)]
  cases hdd : Decode (pfx a ++ 49 :: cs') with
  | err m => exact ⟨m, rfl⟩
  | panic => exact absurd hdd (Bech32.decode_not_panic _)
  | ok r =>
    obtain ⟨g, d2⟩ := r
    obtain ⟨cs2, vs2, e2, k2, _, m2, _, _, c2, lt2, _, v2⟩ := Bech32.decode_ok _ _ _ hdd
    have lc2 : cs2.length = vs2.length := by simpa [toLower] using congrArg List.length c2
    have : cs2 = cs' := by
      obtain ⟨rfl, h⟩ := sep_unique _ _ _ _ hn' k2 e2
      exact h.symm
    subst this
    obtain ⟨_, _, p2, _, q2, w2, _⟩ := convert_nopad 5 8 (by omega) (by omega) (by omega) _ _ v2
    rw [List.length_take] at w2
    replace h10 : 8 ≤ vs2.length := by omega
    have hv : vs2.take 2 = vs1.take 2 := by
      obtain ⟨b1, _⟩ := (C11_regroup_5_to_8 _ _).1 v1
      have x := congrArg (List.take 2) c1
      have y := congrArg (List.take 2) c2
      unfold toLower at x y
      rw [← List.map_take, ← List.map_take] at x y
      rw [h2] at y
      have z := x.symm.trans y
      refine (chr_map_inj _ _ ?_ ?_ z).symm
      · intro v hv
        exact b1 v ((List.take_sublist_take_left (by omega)).mem hv)
      · intro v hv; exact lt2 v (List.mem_of_mem_take hv)
    match vs1, vs2 with
    | x :: y :: r1, x' :: y' :: r2 =>
      simp only [List.take_succ_cons, List.take_zero, List.cons.injEq, and_true] at hv
      obtain ⟨rfl, rfl⟩ := hv
      have t1 : (x' :: y' :: r1).take ((x' :: y' :: r1).length - 6) = x' :: y' :: r1.take (r1.length + 2 - 6 - 2) := by
        have : (x' :: y' :: r1).length - 6 = (r1.length + 2 - 6 - 2) + 1 + 1 := by simp only [List.length_cons] at lc1 w1 ⊢; omega
        rw [this, List.take_succ_cons, List.take_succ_cons]
      have t2 : (x' :: y' :: r2).take ((x' :: y' :: r2).length - 6) = x' :: y' :: r2.take (r2.length + 2 - 6 - 2) := by
        have : (x' :: y' :: r2).length - 6 = (r2.length + 2 - 6 - 2) + 1 + 1 := by simp only [List.length_cons] at lc2 h10 ⊢; omega
        rw [this, List.take_succ_cons, List.take_succ_cons]
      rw [t1] at v1
      rw [t2] at v2
      have hd2 : d2.length ≠ 29 := by omega
      match hba : bytes a, hbd : d2 with
      | [], _ => rw [hba] at hb; simp at hb
      | _ :: _, [] => simp only [List.length_nil] at w2 h10; omega
      | h :: t, h' :: t' =>
        rw [hba] at v1
        obtain rfl := first_byte _ _ _ _ _ _ _ _ v1 v2
        show ∃ msg, NewAddressFromBytes strict (h :: t') spare = .err msg
        rcases ht with ⟨n, p, rfl⟩ | ⟨n, p, rfl⟩
        · rw [parse_enterprise]
          · by_cases hlt : (h :: t').length < 29
            · rw [if_pos hlt]; exact ⟨_, rfl⟩
            · rw [if_neg hlt, if_pos (by omega)]; exact ⟨_, rfl⟩
          · obtain ⟨h1, ⟨h2, _⟩⟩ := ha
            simp only [bytes, List.cons.injEq] at hba
            rw [← hba.1]
            rcases h1 with rfl | rfl <;> rcases h2 with h2 | h2 <;> rw [h2] <;> decide
        · rw [parse_reward]
          · by_cases hlt : (h :: t').length < 29
            · rw [if_pos hlt]; exact ⟨_, rfl⟩
            · rw [if_neg hlt, if_pos (by omega)]; exact ⟨_, rfl⟩
          · obtain ⟨h1, ⟨h2, _⟩⟩ := ha
            simp only [bytes, List.cons.injEq] at hba
            rw [← hba.1]
            rcases h1 with rfl | rfl <;> rcases h2 with h2 | h2 <;> rw [h2] <;> decide
    | [], _ => simp at m1
    | [_], _ => simp at m1
    | _ :: _ :: _, [] => simp at m2
    | _ :: _ :: _, [_] => simp at m2

/-- A valid sequence of symbols that ends in 1 stays valid when zeros are put before this 1 (a known weakness of Bech32). -/
theorem Typo.zeros_before_one (h vs : Bytes) (hv : ∀ v ∈ vs, v.toNat < 32) (hp : polymod (hrpExpand h ++ (vs ++ [1])) = 1) (k : Nat) :
    polymod (hrpExpand h ++ (vs ++ List.replicate k 0 ++ [1])) = 1 := by
  have hl : ∀ x ∈ hrpExpand h ++ vs, x.toNat < 32 := by
    intro x hx
    rcases List.mem_append.1 hx with hx | hx
    exacts [hrpExpand_lt h x hx, hv x hx]
  have one : ∀ c : UInt32, polymodStep c 1 = 1 ↔ lin c = 0 := by
    intro c
    rw [step_eq]
    constructor
    · intro e
      have := congrArg (· ^^^ (1 : UInt32)) e
      simpa [UInt32.xor_assoc] using this
    · intro e; rw [e]; rfl
  rw [← List.append_assoc, polymod_append] at hp
  have h0 : polymod (hrpExpand h ++ vs) = 0 := lin_eq_zero _ (polymod_lt _ hl) ((one _).1 hp)
  rw [← List.append_assoc, ← List.append_assoc, polymod_append, polymod_append, h0, foldl_replicate]
  have hz : ∀ k, linPow k 0 = 0 := by
    intro k; induction k with
    | zero => rfl
    | succ k ih => simp only [linPow]; rw [lin_zero, ih]
  rw [hz]
  exact (one 0).2 lin_zero

/-- **C101 is false for base addresses**: if the text of a base address ends in `p`, then eight characters `q` can be put before this last character and the longer text is accepted,
as the same address (the bytes too many are ignored, C05). -/
theorem C101_added_unnoticed (n : NetworkInfo) (p s : Cred) (ha : ShelleyOk (.base n p s)) (cs : Bytes)
    (hs : string (.base n p s) = .ok (pfx (.base n p s) ++ 49 :: (cs ++ [112]))) (hn : (49 : UInt8) ∉ cs) (strict : Bool) (spare : Bytes) :
    NewAddress strict (pfx (.base n p s) ++ 49 :: (cs ++ List.replicate 8 113 ++ [112])) spare = .ok (.base n p s) := by
  obtain ⟨cs1, h1, hl, hn1, _, hd⟩ := Detect.text_shape (.base n p s) ha (by intros; simp)
  have : cs1 = cs ++ [112] := by
    have := Res.ok.inj (h1.symm.trans hs)
    simpa using List.append_cancel_left this
  subst this
  have hb : (bytes (.base n p s)).length = 57 := by simp [bytes, copyZ]
  obtain ⟨cs2, vs, e1, k1, hne, m1, hok, hcase, c1, lt1, pm, v1⟩ := Bech32.decode_ok _ _ _ hd
  have : cs2 = cs ++ [112] := by simpa using (List.append_cancel_left e1).symm
  subst this
  have lc1 : (cs ++ [112] : Bytes).length = vs.length := by simpa [toLower] using congrArg List.length c1
  obtain ⟨_, _, q, _, q1, w1, _⟩ := convert_nopad 5 8 (by omega) (by omega) (by omega) _ _ v1
  rw [List.length_take] at w1
  obtain ⟨ws, z, rfl⟩ : ∃ ws z, vs = ws ++ [z] := ⟨vs.dropLast, vs.getLast (by rintro rfl; simp at m1), (List.dropLast_concat_getLast _).symm⟩
  have hz : z = 1 := by
    rw [toLower_append, List.map_append] at c1
    have := (List.append_inj' c1 (by simp [toLower])).2
    have hz := lt1 z (by simp)
    have h2 : chr z = chr 1 := by
      have e : toLower [112] = [chr 1] := by decide
      rw [e] at this
      simpa using this.symm
    exact chr_inj z 1 hz (by decide) h2
  subst hz
  have lw : ws.length = 97 := by simp only [List.length_append, List.length_cons, List.length_nil] at w1 m1; omega
  have hw : ∀ v ∈ ws, v.toNat < 32 := fun v hv => lt1 v (by simp [hv])
  have tk : (ws ++ [1]).take ((ws ++ [1]).length - 6) = ws.take 92 := by
    have : (ws ++ [1] : Bytes).length - 6 = 92 := by simp [lw]
    rw [this, List.take_append_of_le_length (by omega)]
  rw [tk] at v1
  obtain ⟨_, r, _, st⟩ := (C11_regroup_5_to_8 _ _).1 v1
  -- the bits of the longer text
  obtain ⟨out, ol, ob⟩ := bytes_of_bits 62 (bitStream 5 (ws ++ [0, 0]) ++ [false]) (by
    rw [List.length_append, bitStream_length]; simp [lw])
  have hx : ∃ ex, out = bytes (.base n p s) ++ ex := by
    refine ⟨out.drop 57, ?_⟩
    have : out.take 57 = bytes (.base n p s) := by
      apply stream_inj
      have e1 : bitStream 8 (out.take 57) ++ bitStream 8 (out.drop 57) =
          bitStream 8 (bytes (.base n p s)) ++ (List.replicate r false ++ bitStream 5 (ws.drop 92 ++ [0, 0]) ++ [false]) := by
        rw [← stream_append, List.take_append_drop, ob]
        have : ws ++ [0, 0] = ws.take 92 ++ (ws.drop 92 ++ [0, 0]) := by rw [← List.append_assoc, List.take_append_drop]
        rw [this, stream_append, st]
        simp only [List.append_assoc]
      refine (List.append_inj e1 ?_).1
      rw [bitStream_length, bitStream_length, hb, List.length_take, ol]; rfl
    rw [← this, List.take_append_drop]
  obtain ⟨ex, hx⟩ := hx
  have hcv : convertBits ((ws ++ List.replicate 8 0 ++ [1]).take ((ws ++ List.replicate 8 0 ++ [1]).length - 6)) 5 8 false = .ok out := by
    have e : (ws ++ List.replicate 8 0 ++ [1] : Bytes).take ((ws ++ List.replicate 8 0 ++ [1]).length - 6) = ws ++ [0, 0, 0] := by
      have : (ws ++ List.replicate 8 0 ++ [1] : Bytes).length - 6 = ws.length + 3 := by simp
      rw [this, List.append_assoc, List.take_length_add_append]; rfl
    rw [e, C11_regroup_5_to_8]
    refine ⟨?_, 4, by omega, ?_⟩
    · intro v hv
      rcases List.mem_append.1 hv with hv | hv
      · exact hw v hv
      · simp at hv; subst hv; decide
    · rw [ob]
      have : ws ++ [0, 0, 0] = (ws ++ [0, 0]) ++ ([0] : Bytes) := by simp
      rw [this, stream_append, List.append_assoc]
      rfl
  have hlow : toLower (cs ++ List.replicate 8 113 ++ [112]) = (ws ++ List.replicate 8 0 ++ [1]).map chr := by
    rw [toLower_append, List.map_append] at c1
    obtain ⟨c2, c3⟩ := List.append_inj' c1 (by simp [toLower])
    rw [toLower_append, toLower_append, List.map_append, List.map_append, c2, c3]
    congr 1
  have hdec := decode_of (pfx (.base n p s)) out (cs ++ List.replicate 8 113 ++ [112]) (ws ++ List.replicate 8 0 ++ [1])
    (by simp [hn]) hne (by simp) hok ?_ hlow ?_ (Typo.zeros_before_one _ ws hw pm 8) hcv
  · rw [newAddress_bech32 _ _ _ (looks_append _ _ hl), hdec, hx]
    have hrt := C01_bytes_roundtrip strict (.base n p s) (ex ++ spare) ha
    match hba : bytes (.base n p s) with
    | [] => rw [hba] at hb; simp at hb
    | h :: t =>
      rw [hba] at hrt hb
      have hh : h.toNat / 16 ≤ 3 := by
        obtain ⟨h1, ⟨h2, _⟩, ⟨h3, _⟩⟩ := ha
        simp only [bytes, List.cons.injEq] at hba
        rw [← hba.1]
        rcases h1 with rfl | rfl <;> rcases h2 with h2 | h2 <;> rcases h3 with h3 | h3 <;> rw [h2, h3] <;> decide
      show NewAddressFromBytes strict (h :: (t ++ ex)) spare = _
      rw [parse_base _ _ _ _ hh] at hrt ⊢
      rw [if_pos (by rw [hb]; omega)] at hrt
      rw [if_pos (by simp only [List.length_cons, List.length_append] at hb ⊢; omega), ← hrt]
      simp only [List.cons_append, List.append_assoc]
  · rcases hcase with h | h
    · left
      rw [toLower_eq_self] at h ⊢
      intro c hc
      by_cases h113 : c = 113
      · rw [h113]; decide
      · refine h c ?_
        simp only [List.mem_append, List.mem_cons, List.mem_replicate, List.not_mem_nil, or_false] at hc ⊢
        rcases hc with hc | hc | (hc | hc) | hc
        · exact .inl hc
        · exact .inr (.inl hc)
        · exact .inr (.inr (.inl hc))
        · exact absurd hc.2 h113
        · exact .inr (.inr (.inr hc))
    · exact absurd ((toUpper_eq_self _).1 h 112 (by simp)) (by decide)
  · intro v hv
    rcases List.mem_append.1 hv with hv | hv
    · rcases List.mem_append.1 hv with hv | hv
      · exact hw v hv
      · rw [List.mem_replicate.1 hv |>.2]; decide
    · simp at hv; subst hv; decide

/-- A main net base address, and its text with one character `q` added before the last. -/
def addedCharacter : Bytes × Bytes :=
  (asc "addr1q98x3src8mlmsf023gsu6u0elt58ajv5hs2mtu0vfmn4v8l6khmf3y8hn9deekqc462w3tcej2jnwl8vkuqyfty8xamqzts7zp".toList,
   asc "addr1q98x3src8mlmsf023gsu6u0elt58ajv5hs2mtu0vfmn4v8l6khmf3y8hn9deekqc462w3tcej2jnwl8vkuqyfty8xamqzts7zqp".toList)

/-- The hypotheses of `C101_added_unnoticed` can be met, and for some addresses a single added character goes unnoticed. -/
theorem C101_one_added_unnoticed : ∃ p s, ShelleyOk (.base MainNet p s) ∧ string (.base MainNet p s) = .ok addedCharacter.1 ∧
    NewAddress true addedCharacter.2 [] = .ok (.base MainNet p s) ∧ addedCharacter.2 = addedCharacter.1.take 102 ++ 113 :: addedCharacter.1.drop 102 ∧
    addedCharacter.1.getLast? = some 112 := by
  have h : (match NewAddress true addedCharacter.2 [] with
      | .ok (.base n p s) => decide (n = MainNet ∧ (p.kind = 0 ∧ p.payload.length = 28) ∧ (s.kind = 0 ∧ s.payload.length = 28) ∧
          string (.base MainNet p s) = .ok addedCharacter.1)
      | _ => false) = true := by decide +kernel
  have h2 : addedCharacter.2 = addedCharacter.1.take 102 ++ 113 :: addedCharacter.1.drop 102 := by decide +kernel
  have h3 : addedCharacter.1.getLast? = some 112 := by decide +kernel
  revert h
  cases NewAddress true addedCharacter.2 [] with
  | ok a =>
    cases a with
    | base n p s =>
      intro h
      obtain ⟨rfl, h4, h5, h6⟩ := of_decide_eq_true h
      exact ⟨p, s, ⟨.inl rfl, ⟨.inl h4.1, h4.2⟩, ⟨.inl h5.1, h5.2⟩⟩, h6, rfl, h2, h3⟩
    | _ => intro h; cases h
  | err m => intro h; cases h
  | panic => intro h; cases h

/-- A main net base address, and its text with one character, `e`, typed twice. -/
def doubledCharacter : Bytes × Bytes :=
  (asc "addr1qxtunwxmcw3zud2s9t0elarmm6duugwe7j8zvc2atr3z0sugdm4nzl8fa48ec4m5qdl6pkkyn9v0chfuvmp7lxyyh7ksseuw6c".toList,
   asc "addr1qxtunwxmcw3zud2s9t0eelarmm6duugwe7j8zvc2atr3z0sugdm4nzl8fa48ec4m5qdl6pkkyn9v0chfuvmp7lxyyh7ksseuw6c".toList)

/-- Worse, a single character typed twice can turn the text of a base address into text that is read as another address, of other keys. -/
theorem C101_other_address : ∃ p s p' s', ShelleyOk (.base MainNet p s) ∧ string (.base MainNet p s) = .ok doubledCharacter.1 ∧
    NewAddress true doubledCharacter.2 [] = .ok (.base MainNet p' s') ∧ p'.payload ≠ p.payload ∧ s'.payload ≠ s.payload ∧
    doubledCharacter.2 = doubledCharacter.1.take 25 ++ doubledCharacter.1.drop 24 := by
  have h : (match NewAddress true doubledCharacter.1 [], NewAddress true doubledCharacter.2 [] with
      | .ok (.base n p s), .ok (.base n' p' s') => decide (n = MainNet ∧ n' = MainNet ∧ (p.kind = 0 ∧ p.payload.length = 28) ∧ (s.kind = 0 ∧ s.payload.length = 28) ∧
          string (.base MainNet p s) = .ok doubledCharacter.1 ∧ p'.payload ≠ p.payload ∧ s'.payload ≠ s.payload)
      | _, _ => false) = true := by decide +kernel
  have h2 : doubledCharacter.2 = doubledCharacter.1.take 25 ++ doubledCharacter.1.drop 24 := by decide +kernel
  split at h
  · rename_i n p s n' p' s' e e'
    obtain ⟨rfl, rfl, h4, h5, h6, h7, h8⟩ := of_decide_eq_true h
    exact ⟨p, s, p', s', ⟨.inl rfl, ⟨.inl h4.1, h4.2⟩, ⟨.inl h5.1, h5.2⟩⟩, h6, e', h7, h8, h2⟩
  · cases h

/-! ### C102: the prefix -/

/-- `t` comes from `s` by one slip of the pen: one character replaced, left out or added, or two neighbours exchanged. -/
inductive Slip (s t : Bytes) : Prop
  | replaced (u v : Bytes) (x y : UInt8) : s = u ++ x :: v → t = u ++ y :: v → x ≠ y → Slip s t
  | dropped (u v : Bytes) (x : UInt8) : s = u ++ x :: v → t = u ++ v → Slip s t
  | added (u v : Bytes) (y : UInt8) : s = u ++ v → t = u ++ y :: v → Slip s t
  | exchanged (u v : Bytes) (x y : UInt8) : s = u ++ x :: y :: v → t = u ++ y :: x :: v → x ≠ y → Slip s t

/-- If a text is valid then with another prefix it is valid only if the prefixes have the same checksum state. -/
theorem Typo.same_state (h h' cs : Bytes) (r r' : Bytes × Bytes) (hn : (49 : UInt8) ∉ cs) (e : Decode (h ++ 49 :: cs) = .ok r)
    (e' : Decode (h' ++ 49 :: cs) = .ok r') : polymod (hrpExpand h) = polymod (hrpExpand h') := by
  obtain ⟨g, d⟩ := r
  obtain ⟨g', d'⟩ := r'
  obtain ⟨cs1, vs, e1, k1, _, _, _, _, c1, lt1, p1, _⟩ := Bech32.decode_ok _ _ _ e
  obtain ⟨cs2, vs', e2, k2, _, _, _, _, c2, lt2, p2, _⟩ := Bech32.decode_ok _ _ _ e'
  obtain ⟨rfl, rfl⟩ := sep_unique _ _ _ _ hn k1 e1
  obtain ⟨rfl, rfl⟩ := sep_unique _ _ _ _ hn k2 e2
  have hv : vs = vs' := chr_map_inj vs vs' lt1 lt2 (c1.symm.trans c2)
  subst hv
  rw [polymod_append] at p1 p2
  have hx := foldl_xor vs vs (polymod (hrpExpand h)) (polymod (hrpExpand h')) rfl
  rw [p1, p2] at hx
  have hzero : ∀ vs : Bytes, xorList vs vs = List.replicate vs.length 0 := by
    intro vs
    unfold xorList
    induction vs with
    | nil => rfl
    | cons v vs ih => simp only [List.zipWith_cons_cons, List.length_cons, List.replicate_succ, ih]; simp
  rw [hzero, foldl_replicate] at hx
  have := linPow_eq_zero _ _ (by
    rw [UInt32.toNat_xor]
    exact Nat.xor_lt_two_pow (polymod_lt _ (hrpExpand_lt h)) (polymod_lt _ (hrpExpand_lt h'))) (by simpa using hx)
  have h3 := congrArg (· ^^^ polymod (hrpExpand h')) this
  simpa [UInt32.xor_assoc] using h3

theorem Typo.prefix_char (y : UInt8) (h1 : 33 ≤ y ∧ y ≤ 126) (h2 : lower8 y = y) : y.toNat ∈ prefixChars := by
  have : ∀ y : UInt8, (33 ≤ y ∧ y ≤ 126) → lower8 y = y → y.toNat ∈ prefixChars := forall_byte (by decide +kernel)
  exact this y h1 h2

/-- A slip changes the checksum state of a prefix. -/
theorem Typo.slip_state (p t : Bytes) (hp : p ∈ addressPrefixes) (hs : Slip p t) (hok : hrpCharsOk t = true) (hlow : toLower t = t) :
    polymod (hrpExpand p) ≠ polymod (hrpExpand t) := by
  intro e
  have hpl : toLower p = p := by
    have : ∀ p ∈ addressPrefixes, toLower p = p := by decide
    exact this p hp
  have e' := congrArg UInt32.toNat e
  rw [state_eq p hpl, state_eq t hlow] at e'
  have hchars : ∀ y ∈ t, y.toNat ∈ prefixChars := by
    intro y hy
    refine prefix_char y ?_ ((toLower_eq_self t).1 hlow y hy)
    simpa [hrpCharsOk] using List.all_eq_true.1 hok y hy
  have hall := slips_ok p hp
  unfold slipsOk at hall
  rw [List.all_eq_true] at hall
  have d1 : ∀ (U V : List Nat) (x : Nat), (U ++ x :: V).drop (U.length + 1) = V := fun U V x => by
    rw [← List.singleton_append, ← List.append_assoc]; exact List.drop_left' (by simp)
  have d2 : ∀ (U V : List Nat) (x y : Nat), (U ++ x :: y :: V).drop (U.length + 2) = V := fun U V x y => by
    rw [show U ++ x :: y :: V = (U ++ [x, y]) ++ V by simp]; exact List.drop_left' (by simp)
  have g0 : ∀ (U V : List Nat) (x : Nat), (U ++ x :: V)[U.length]? = some x := fun U V x => by simp
  have g1 : ∀ (U V : List Nat) (x y : Nat), (U ++ x :: y :: V)[U.length + 1]? = some y := fun U V x y => by
    rw [List.getElem?_append_right (by omega)]; simp
  cases hs with
  | added u v y h1 h2 =>
    subst h1; subst h2
    have hy := hchars y (by simp)
    simp only [List.map_append, List.map_cons] at e' hall
    generalize u.map UInt8.toNat = U at *
    generalize v.map UInt8.toNat = V at *
    have h := hall U.length (by simp)
    simp only [Bool.and_eq_true, List.all_eq_true, List.take_left, List.drop_left, bne_iff_ne] at h
    exact h.1.1.1 _ hy e'.symm
  | replaced u v x y h1 h2 hne =>
    subst h1; subst h2
    have hy := hchars y (by simp)
    have hx : x.toNat ≠ y.toNat := fun h => hne (UInt8.toNat_inj.1 h)
    simp only [List.map_append, List.map_cons] at e' hall
    generalize u.map UInt8.toNat = U at *
    generalize v.map UInt8.toNat = V at *
    have h := hall U.length (by simp)
    simp only [Bool.and_eq_true, List.all_eq_true] at h
    have h := h.1.1.2 _ hy
    rw [g0, d1, List.take_left] at h
    simp [e', hx] at h
  | dropped u v x h1 h2 =>
    subst h1; subst h2
    simp only [List.map_append, List.map_cons] at e' hall
    generalize u.map UInt8.toNat = U at *
    generalize v.map UInt8.toNat = V at *
    have h := hall U.length (by simp)
    simp only [Bool.and_eq_true, List.all_eq_true] at h
    have h := h.1.2
    rw [d1, List.take_left] at h
    simp [e'] at h
  | exchanged u v x y h1 h2 hne =>
    subst h1; subst h2
    have hx : x.toNat ≠ y.toNat := fun h => hne (UInt8.toNat_inj.1 h)
    simp only [List.map_append, List.map_cons] at e' hall
    generalize u.map UInt8.toNat = U at *
    generalize v.map UInt8.toNat = V at *
    have h := hall U.length (by simp)
    simp only [Bool.and_eq_true, List.all_eq_true] at h
    have h := h.2
    rw [d2, List.take_left, List.getD_eq_getElem?_getD, List.getD_eq_getElem?_getD, g0, g1] at h
    simp [e', hx] at h

/-- **C102 (a slip in the prefix).** If a text with one of the four address prefixes is accepted, then the same data part after a prefix with one character replaced, left out or added,
or with two neighbouring characters exchanged, is refused with an error (as long as it still begins with `addr` or `stake`; for the rest see C103). -/
theorem C102_prefix_slip (strict : Bool) (p t cs spare spare' : Bytes) (a : Address) (hp : p ∈ addressPrefixes) (hn : (49 : UInt8) ∉ cs)
    (hacc : NewAddress strict (p ++ 49 :: cs) spare = .ok a) (hs : Slip p t) (hl : LooksBech32 t) :
    ∃ m, NewAddress strict (t ++ 49 :: cs) spare' = .err m := by
  have hlp : LooksBech32 p := by
    simp only [addressPrefixes, List.mem_cons, List.not_mem_nil, or_false] at hp
    rcases hp with rfl | rfl | rfl | rfl
    exacts [.inl ⟨[], rfl⟩, .inl ⟨asc ['_','t','e','s','t'], rfl⟩, .inr ⟨[], rfl⟩, .inr ⟨asc ['_','t','e','s','t'], rfl⟩]
  obtain ⟨hrp, d, hd, _⟩ := accepted_decodes _ _ _ _ (looks_append _ _ hlp) hacc
  apply err_of_decode _ _ _ (looks_append _ _ hl)
  cases hdd : Decode (t ++ 49 :: cs) with
  | err m => exact ⟨m, rfl⟩
  | panic => exact absurd hdd (Bech32.decode_not_panic _)
  | ok r =>
    exfalso
    obtain ⟨g, d'⟩ := r
    obtain ⟨cs2, vs, e2, k2, _, _, hok, hcase, _⟩ := Bech32.decode_ok _ _ _ hdd
    obtain ⟨rfl, rfl⟩ := sep_unique _ _ _ _ hn k2 e2
    have hlow : toLower t = t := by
      rcases hcase with h | h
      · rw [toLower_append] at h
        exact (List.append_inj h (by simp [toLower])).1
      · exfalso
        rw [toUpper_eq_self] at h
        rcases hl with ⟨r, rfl⟩ | ⟨r, rfl⟩
        · exact absurd (h 97 (by simp [asc])) (by decide)
        · exact absurd (h 97 (by simp [asc])) (by decide)
    exact Typo.slip_state p t hp hs hok hlow (Typo.same_state p t cs _ _ hn hd hdd)

/-- **C102 (the wrong prefix).** If a text with one of the four address prefixes is accepted, then the same data part after another of them is refused with an error: a test net address
cannot be taken for a main net address, nor a stake address for a payment address, by exchanging the prefix. -/
theorem C102_prefix_exchanged (strict : Bool) (p p' cs spare spare' : Bytes) (a : Address) (hp : p ∈ addressPrefixes) (hp' : p' ∈ addressPrefixes) (hne : p ≠ p')
    (hn : (49 : UInt8) ∉ cs) (hacc : NewAddress strict (p ++ 49 :: cs) spare = .ok a) : ∃ m, NewAddress strict (p' ++ 49 :: cs) spare' = .err m := by
  have hlp : ∀ p ∈ addressPrefixes, LooksBech32 p := by
    intro p hp
    simp only [addressPrefixes, List.mem_cons, List.not_mem_nil, or_false] at hp
    rcases hp with rfl | rfl | rfl | rfl
    exacts [.inl ⟨[], rfl⟩, .inl ⟨asc ['_','t','e','s','t'], rfl⟩, .inr ⟨[], rfl⟩, .inr ⟨asc ['_','t','e','s','t'], rfl⟩]
  obtain ⟨hrp, d, hd, _⟩ := accepted_decodes _ _ _ _ (looks_append _ _ (hlp p hp)) hacc
  apply err_of_decode _ _ _ (looks_append _ _ (hlp p' hp'))
  cases hdd : Decode (p' ++ 49 :: cs) with
  | err m => exact ⟨m, rfl⟩
  | panic => exact absurd hdd (Bech32.decode_not_panic _)
  | ok r =>
    exfalso
    have key : ∀ p ∈ addressPrefixes, ∀ p' ∈ addressPrefixes, p ≠ p' → polymod (hrpExpand p) ≠ polymod (hrpExpand p') := by decide +kernel
    exact key p hp p' hp' hne (Typo.same_state p p' cs _ _ hn hd hdd)

/-- Non-vacuity of C102: the stake address of the repository's tests, and a slip in its prefix. -/
example : sampleStake.1 ∈ addressPrefixes ∧ (NewAddress true (sampleStake.1 ++ 49 :: sampleStake.2) []).isOk = true ∧ (49 : UInt8) ∉ sampleStake.2 ∧
    Slip sampleStake.1 (asc "stake_tesst".toList) ∧ LooksBech32 (asc "stake_tesst".toList) :=
  ⟨by decide, by decide +kernel, by decide, .added (asc "stake_tes".toList) (asc "t".toList) 115 (by decide) (by decide),
    .inr ⟨asc "_tesst".toList, by decide⟩⟩

/-! ### C103: text that is neither Bech32 nor Byron -/

theorem Typo.newAddress_base58 (strict : Bool) (s spare : Bytes) (h : ¬ LooksBech32 s) :
    NewAddress strict s spare = NewAddressFromBytes strict (Base58.decode s) spare := by
  unfold NewAddress
  rw [if_neg (fun e => h ((looks_iff s).1 e))]

/-- **C103 (partial).** What `NewAddress` accepts is either Bech32 text with a valid checksum, or text in the Base58 alphabet; the address is the one that the decoded bytes denote. Missing: that
the latter is a Byron address, which has a checksum of its own; this is false, see the next theorems. -/
theorem C103_accepted_text_partial (strict : Bool) (s spare : Bytes) (a : Address) (h : NewAddress strict s spare = .ok a) :
    (LooksBech32 s ∧ ∃ hrp d, Decode s = .ok (hrp, d) ∧ NewAddressFromBytes strict d spare = .ok a) ∨
    (¬ LooksBech32 s ∧ B58Text s ∧ NewAddressFromBytes strict (Base58.decode s) spare = .ok a) := by
  by_cases hl : LooksBech32 s
  · exact .inl ⟨hl, accepted_decodes _ _ _ _ hl h⟩
  · rw [Typo.newAddress_base58 _ _ _ hl] at h
    refine .inr ⟨hl, ?_, h⟩
    by_cases hb : B58Text s
    · exact hb
    · unfold Base58.decode at h
      rw [value_none s hb] at h
      cases h

/-- **C103 is false** (panic): a text that does not begin with `addr` or `stake` and holds a character outside the Base58 alphabet, such as `0`, `O`, `I`, `l`, a blank or `_`, makes
`NewAddress` panic. -/
theorem C103_other_text_panics (strict : Bool) (s spare : Bytes) (hl : ¬ LooksBech32 s) (hb : ¬ B58Text s) : NewAddress strict s spare = .panic := by
  rw [Typo.newAddress_base58 _ _ _ hl]
  unfold Base58.decode
  rw [value_none s hb]
  rfl

/-- The bytes of a text `u ++ v` in the Base58 alphabet whose first part spells `n0`: if the number of the remaining characters fixes the leading bytes. -/
theorem Typo.decode_leading (u v : Bytes) (n0 q m : Nat) (h1 : Base58.leading 49 (u ++ v) = 0) (hu : Base58.value u 0 = some n0) (hv : B58Text v)
    (hlo : q * 256 ^ m ≤ n0 * 58 ^ v.length) (hhi : (n0 + 1) * 58 ^ v.length ≤ (q + 1) * 256 ^ m) (hq : q ≠ 0) :
    ∃ t : Bytes, t.length = m ∧ Base58.decode (u ++ v) = Base58.natBytes q ++ t := by
  obtain ⟨n, e, l1, l2⟩ := value_some v hv n0
  have hn : n / 256 ^ m = q := by
    have hp : 0 < 256 ^ m := Nat.pow_pos (by omega)
    exact Nat.div_eq_of_lt_le (Nat.le_trans hlo l1) (Nat.lt_of_lt_of_le l2 hhi)
  obtain ⟨t, h2, h3⟩ := natBytes_split m n (by rw [hn]; exact hq)
  refine ⟨t, h2, ?_⟩
  unfold Base58.decode
  rw [value_append u v 0 n0 hu, e]
  simp only [h1, List.replicate_zero, List.nil_append]
  rw [h3, hn]

/-- The text of a well-formed address in capitals: prefix and data part. -/
theorem Typo.upper_text (a : Address) (ha : ShelleyOk a) (hp : ∀ n p s, a ≠ .pointer n p s) :
    ∃ cs : Bytes, string a = .ok (pfx a ++ 49 :: cs) ∧ (∀ c ∈ toUpper cs, c = 48 ∨ c ∈ Base58.alphabet) ∧ 5 * (cs.length - 6) < 8 * (bytes a).length + 5 ∧
      8 * (bytes a).length ≤ 5 * (cs.length - 6) := by
  obtain ⟨cs, h1, hl, hn, hlen, hd⟩ := Detect.text_shape a ha hp
  obtain ⟨cs2, vs, e1, k1, hne, m1, hok, hcase, c1, lt1, pm, v1⟩ := Bech32.decode_ok _ _ _ hd
  have : cs2 = cs := by simpa using (List.append_cancel_left e1).symm
  subst this
  have lc1 : cs2.length = vs.length := by simpa [toLower] using congrArg List.length c1
  obtain ⟨_, _, q, _, q1, w1, _⟩ := convert_nopad 5 8 (by omega) (by omega) (by omega) _ _ v1
  rw [List.length_take] at w1
  refine ⟨cs2, h1, ?_, hlen, by omega⟩
  have hlow : ∀ c ∈ cs2, lower8 c = c := by
    rcases hcase with h | h
    · intro c hc; exact (toLower_eq_self _).1 h c (by simp [hc])
    · exfalso
      rw [toUpper_eq_self] at h
      rcases hl with ⟨r, hr⟩ | ⟨r, hr⟩
      · exact absurd (h 97 (by rw [← hr]; simp [asc])) (by decide)
      · exact absurd (h 97 (by rw [← hr]; simp [asc])) (by decide)
  have c1' : cs2 = vs.map chr := ((toLower_eq_self _).2 hlow).symm.trans c1
  intro c hc
  rw [c1'] at hc
  obtain ⟨x, hx, rfl⟩ := List.mem_map.1 hc
  obtain ⟨v, hv, rfl⟩ := List.mem_map.1 hx
  have key : ∀ v : UInt8, v.toNat < 32 → upper8 (chr v) = 48 ∨ upper8 (chr v) ∈ Base58.alphabet := forall_byte (by decide +kernel)
  exact key v (lt1 v hv)

/-- **C103 is false** (capitals): Bech32 text may also be written in capitals (BIP-173), but no address text in capitals is read correctly. `NewAddress` panics; or, for main net base addresses without a `0` in the text,
it returns a main net base address whose payment credential is always a key hash beginning with a4e7f5, whatever the address was. -/
theorem C103_capitals (strict : Bool) (a : Address) (ha : ShelleyOk a) (hp : ∀ n p s, a ≠ .pointer n p s) : ∃ s, string a = .ok s ∧
    (NewAddress strict (toUpper s) [] = .panic ∨
      ((∃ p s, a = .base MainNet p s) ∧ 48 ∉ s ∧ ∃ h t, NewAddress strict (toUpper s) [] = .ok (.base MainNet ⟨0, 0xa4 :: 0xe7 :: 0xf5 :: h⟩ ⟨0, t⟩))) := by
  obtain ⟨cs, h1, h2, h3, h4⟩ := Typo.upper_text a ha hp
  refine ⟨_, h1, ?_⟩
  rw [toUpper_append]
  have hc49 : toUpper (49 :: cs) = 49 :: toUpper cs := rfl
  rw [hc49]
  have hcl : (toUpper cs).length = cs.length := by simp [toUpper]
  have hl : ¬ LooksBech32 (toUpper (pfx a) ++ 49 :: toUpper cs) := by
    have key : ∀ p ∈ addressPrefixes, ∀ r : Bytes, ¬ LooksBech32 (toUpper p ++ r) := by
      intro p hp r
      simp only [addressPrefixes, List.mem_cons, List.not_mem_nil, or_false] at hp
      rcases hp with rfl | rfl | rfl | rfl <;> rintro (⟨t, h⟩ | ⟨t, h⟩) <;> cases h
    refine key (pfx a) ?_ _
    cases a with
    | byron b => exact absurd ha id
    | pointer n p s => exact absurd rfl (hp n p s)
    | base n p s => simp only [pfx]; split <;> decide
    | enterprise n p => simp only [pfx]; split <;> decide
    | reward n p => simp only [pfx]; split <;> decide
  by_cases hb : B58Text (toUpper (pfx a) ++ 49 :: toUpper cs)
  · have h95 : (95 : UInt8) ∉ pfx a := fun h => absurd (hb 95 (List.mem_append_left _ (List.mem_map.2 ⟨95, h, rfl⟩))) (by decide)
    have h48 : (48 : UInt8) ∉ pfx a ++ 49 :: cs := by
      intro h
      refine absurd (hb 48 ?_) (by decide)
      rcases List.mem_append.1 h with h | h
      · exact List.mem_append_left _ (List.mem_map.2 ⟨48, h, rfl⟩)
      · rcases List.mem_cons.1 h with h | h
        · cases h
        · exact List.mem_append_right _ (List.mem_cons_of_mem _ (List.mem_map.2 ⟨48, h, rfl⟩))
    have hbc : B58Text (toUpper cs) := fun c hc => hb c (List.mem_append_right _ (List.mem_cons_of_mem _ hc))
    rw [Typo.newAddress_base58 _ _ _ hl]
    have hsplit : toUpper (pfx a) ++ 49 :: toUpper cs = (toUpper (pfx a) ++ [49]) ++ toUpper cs := by simp
    rw [hsplit]
    cases a with
    | byron b => exact absurd ha id
    | pointer n p s => exact absurd rfl (hp n p s)
    | base n p s =>
      right
      have hb57 : (bytes (.base n p s)).length = 57 := by simp [bytes, copyZ]
      have hlen : (toUpper cs).length = 98 := by omega
      obtain ⟨rfl | rfl, _⟩ := ha
      · refine ⟨⟨p, s, rfl⟩, h48, ?_⟩
        obtain ⟨t, e1, e2⟩ := Typo.decode_leading (asc ['A','D','D','R','1']) (toUpper cs) 104231568 0x01a4e7f5 72 (by rfl) (by decide +kernel) hbc
          (by rw [hlen]; decide +kernel) (by rw [hlen]; decide +kernel) (by decide)
        have hpf : toUpper (pfx (.base MainNet p s)) ++ [49] = asc ['A','D','D','R','1'] := rfl
        rw [hpf, e2]
        have hnb : Base58.natBytes 0x01a4e7f5 = [1, 0xa4, 0xe7, 0xf5] := by decide +kernel
        rw [hnb]
        show ∃ h t', NewAddressFromBytes strict (1 :: 0xa4 :: 0xe7 :: 0xf5 :: t) [] = _
        rw [parse_base _ _ _ _ (by decide), if_pos (by simp [e1])]
        exact ⟨t.take 25, t.drop 25 |>.take 28, by simp; decide⟩
      · exact absurd (show (95 : UInt8) ∈ asc ['a','d','d','r','_','t','e','s','t'] by decide) h95
    | enterprise n p =>
      left
      have hb29 : (bytes (.enterprise n p)).length = 29 := by simp [bytes, copyZ]
      have hlen : (toUpper cs).length = 53 := by omega
      obtain ⟨rfl | rfl, _⟩ := ha
      · obtain ⟨t, e1, e2⟩ := Typo.decode_leading (asc ['A','D','D','R','1']) (toUpper cs) 104231568 2 42 (by rfl) (by decide +kernel) hbc
          (by rw [hlen]; decide +kernel) (by rw [hlen]; decide +kernel) (by decide)
        have hpf : toUpper (pfx (.enterprise MainNet p)) ++ [49] = asc ['A','D','D','R','1'] := rfl
        rw [hpf, e2]
        have hnb : Base58.natBytes 2 = [2] := by decide +kernel
        rw [hnb]
        show NewAddressFromBytes strict (2 :: t) [] = _
        rw [parse_base _ _ _ _ (by decide), if_neg (by simp [e1])]
      · exact absurd (show (95 : UInt8) ∈ asc ['a','d','d','r','_','t','e','s','t'] by decide) h95
    | reward n p =>
      left
      have hb29 : (bytes (.reward n p)).length = 29 := by simp [bytes, copyZ]
      have hlen : (toUpper cs).length = 53 := by omega
      obtain ⟨rfl | rfl, _⟩ := ha
      · obtain ⟨t, e1, e2⟩ := Typo.decode_leading (asc ['S','T','A','K','E','1']) (toUpper cs) 16704965410 1 43 (by rfl) (by decide +kernel) hbc
          (by rw [hlen]; decide +kernel) (by rw [hlen]; decide +kernel) (by decide)
        have hpf : toUpper (pfx (.reward MainNet p)) ++ [49] = asc ['S','T','A','K','E','1'] := rfl
        rw [hpf, e2]
        have hnb : Base58.natBytes 1 = [1] := by decide +kernel
        rw [hnb]
        show NewAddressFromBytes strict (1 :: t) [] = _
        rw [parse_base _ _ _ _ (by decide), if_neg (by simp [e1])]
      · exact absurd (show (95 : UInt8) ∈ asc ['s','t','a','k','e','_','t','e','s','t'] by decide) h95
  · exact .inl (C103_other_text_panics strict _ [] hl hb)

/-- **C103 is false** (no checksum): a text that begins with a single `1` followed by at least 78 characters of the Base58 alphabet is accepted, whatever the characters are, as a test net base address. -/
theorem C103_leading_one (strict : Bool) (c : UInt8) (r spare : Bytes) (hc : c ≠ 49) (hb : B58Text (c :: r)) (hr : 77 ≤ r.length) :
    ∃ p s, NewAddress strict (49 :: c :: r) spare = .ok (.base TestNet p s) := by
  have hl : ¬ LooksBech32 (49 :: c :: r) := by
    rintro (⟨t, h⟩ | ⟨t, h⟩) <;> cases h
  rw [Typo.newAddress_base58 _ _ _ hl]
  obtain ⟨d, hd, e⟩ := (index_some c).1 (hb c List.mem_cons_self)
  have hd0 : d ≠ 0 := by
    have key : ∀ c : UInt8, Base58.index c = some 0 → c = 49 := forall_byte (by decide +kernel)
    rintro rfl; exact hc (key c e)
  obtain ⟨n, e2, l1, l2⟩ := value_some r (fun x hx => hb x (List.mem_cons_of_mem _ hx)) d
  have hn : n / 256 ^ 56 ≠ 0 := by
    have h58 : 256 ^ 56 ≤ 58 ^ 77 := by decide +kernel
    have h59 : 58 ^ 77 ≤ 58 ^ r.length := Nat.pow_le_pow_right (by omega) hr
    have h60 : 1 * 58 ^ r.length ≤ d * 58 ^ r.length := Nat.mul_le_mul_right _ (by omega)
    have h61 : 256 ^ 56 ≤ n := by
      refine Nat.le_trans h58 (Nat.le_trans h59 ?_)
      rw [Nat.one_mul] at h60
      exact Nat.le_trans h60 l1
    exact Nat.ne_of_gt (Nat.div_pos h61 (Nat.pow_pos (by omega)))
  obtain ⟨t, h2, h3⟩ := natBytes_split 56 n hn
  have hdec : Base58.decode (49 :: c :: r) = 0 :: Base58.natBytes n := by
    unfold Base58.decode
    have : Base58.value (49 :: c :: r) 0 = some n := by
      have i49 : Base58.index 49 = some 0 := by decide
      simp only [Base58.value, i49, e]
      simpa using e2
    rw [this]
    have hle : Base58.leading 49 (49 :: c :: r) = 1 := by simp [Base58.leading, hc]
    simp only [hle]
    rfl
  rw [hdec, parse_base _ _ _ _ (by decide), if_pos (by
    have : Base58.natBytes (n / 256 ^ 56) ≠ [] := by rw [natBytes_step _ hn]; simp
    have := List.length_pos_iff.2 this
    simp only [List.length_cons, h3, List.length_append, h2]; omega)]
  exact ⟨_, _, rfl⟩

/-- The text of a main net base address without `0` and `l`. -/
def plainText : Bytes := asc "addr1qy32m9zjwx57xggezcqj23d568r2qkxqynymr7skd7fv6fy23a3mv8e5px32tetpwztntf866uy8yzj7jkga2cd8dp4qh557j9".toList

/-- Both theorems apply to a real address: its text is accepted, also in capitals (as another address), and also when the first character is mistyped as `1` (as a test net address). -/
example : (NewAddress true plainText []).isOk = true ∧ (NewAddress true (toUpper plainText) []).isOk = true ∧
    (∀ x y, NewAddress true plainText [] = .ok x → NewAddress true (toUpper plainText) [] = .ok y → bytes x ≠ bytes y) ∧
    (∃ r, plainText = 97 :: 100 :: r ∧ B58Text (100 :: r) ∧ 77 ≤ r.length) := by
  refine ⟨by decide +kernel, by decide +kernel, ?_, plainText.drop 2, by decide, by unfold B58Text; decide +kernel, by decide⟩
  have h : (match NewAddress true plainText [], NewAddress true (toUpper plainText) [] with
      | .ok x, .ok y => decide (bytes x ≠ bytes y)
      | _, _ => false) = true := by decide +kernel
  intro x y hx hy
  rw [hx, hy] at h
  exact of_decide_eq_true h

/-! ### C06: texts -/

theorem natBytes_val (n : Nat) : Cbor.beVal (Base58.natBytes n) = n ∧ ∀ x r, Base58.natBytes n = x :: r → x ≠ 0 := by
  have hlt := Base58.digits_lt 256 (by omega) (n + 1) n
  constructor
  · have h := Base58.digits_val 256 (by omega) (n + 1) n (by omega)
    have key : ∀ (l : List Nat) (a : Nat), (∀ d ∈ l, d < 256) →
        (l.map UInt8.ofNat).foldl (fun a x => a * 256 + x.toNat) a = l.foldl (fun a d => a * 256 + d) a := by
      intro l
      induction l with
      | nil => intro a _; rfl
      | cons d l ih =>
        intro a hd
        simp only [List.map_cons, List.foldl_cons]
        rw [ih _ fun x hx => hd x (List.mem_cons_of_mem _ hx), UInt8.toNat_ofNat', Nat.mod_eq_of_lt (hd d List.mem_cons_self)]
    have k := key _ 0 hlt
    rw [h] at k
    exact k
  · intro x r e
    unfold Base58.natBytes at e
    cases hd : Base58.digits 256 (n + 1) n with
    | nil => rw [hd] at e; cases e
    | cons d l =>
      rw [hd] at e
      have h0 := Base58.digits_lead 256 (by omega) _ _ (by omega) d l hd
      have h1 : d < 256 := hlt d (by rw [hd]; exact List.mem_cons_self)
      intro hx
      rw [List.map_cons, List.cons.injEq] at e
      rw [hx] at e
      have := congrArg UInt8.toNat e.1
      rw [UInt8.toNat_ofNat', Nat.mod_eq_of_lt h1] at this
      exact h0 this

theorem b58_digits (s : Bytes) (hs : B58Text s) : ∃ ds : List Nat, (∀ d ∈ ds, d < 58) ∧ s = ds.map b58Char := by
  induction s with
  | nil => exact ⟨[], by simp, rfl⟩
  | cons c s ih =>
    obtain ⟨ds, h1, h2⟩ := ih fun x hx => hs x (List.mem_cons_of_mem _ hx)
    have key : ∀ c : UInt8, c ∈ Base58.alphabet → ∃ d : Fin 58, c = b58Char d.val := forall_byte (by decide +kernel)
    obtain ⟨d, hd⟩ := key c (hs c List.mem_cons_self)
    refine ⟨d.val :: ds, ?_, by rw [List.map_cons, ← hd, ← h2]⟩
    intro x hx
    rcases List.mem_cons.1 hx with rfl | hx
    · exact d.isLt
    · exact h1 x hx

/-- Every text in the Base58 alphabet is the Base58 text of some bytes; these are unique, see `C68`. -/
theorem b58_text_iff (s : Bytes) : B58Text s ↔ ∃ b, IsBase58 b s := by
  constructor
  · intro hs
    obtain ⟨t, e, ht⟩ := Base58.leading_split 49 s
    generalize Base58.leading 49 s = k at e
    subst e
    obtain ⟨ds, h1, h2⟩ := b58_digits t fun c hc => hs c (List.mem_append_right _ hc)
    obtain ⟨v1, v2⟩ := natBytes_val (ds.foldl (fun a d => a * 58 + d) 0)
    refine ⟨_, k, _, ds, rfl, v2, h1, ?_, v1.symm, by rw [h2]⟩
    rintro d r rfl rfl
    exact ht _ _ h2 (by decide)
  · rintro ⟨b, k, t, ds, _, _, h1, _, _, rfl⟩ c hc
    rcases List.mem_append.1 hc with hc | hc
    · rw [List.eq_of_mem_replicate hc]; decide
    · obtain ⟨d, hd, rfl⟩ := List.mem_map.1 hc
      have : ∀ d : Fin 58, b58Char d.val ∈ Base58.alphabet := by decide +kernel
      exact this ⟨d, h1 d hd⟩

/-- **C06 (text).** `NewAddress` panics on exactly these texts: those that begin with `addr` or `stake` and are the Bech32 text of bytes on which `NewAddressFromBytes` panics; and of the
others those with a character outside the Base58 alphabet and those that are the Base58 text of bytes on which it panics, such as the empty text. -/
theorem C06_text_panics_iff_partial (strict : Bool) (s spare : Bytes) :
    NewAddress strict s spare = .panic ↔
    (LooksBech32 s ∧ ∃ hrp d, Decode s = .ok (hrp, d) ∧ PanicInput d spare) ∨
    (¬ LooksBech32 s ∧ ((∃ c ∈ s, ∀ d, d < 58 → c ≠ b58Char d) ∨ ∃ d, IsBase58 d s ∧ PanicInput d spare)) := by
  by_cases hl : LooksBech32 s
  · simp only [hl, true_and, not_true_eq_false, false_and, or_false]
    unfold NewAddress
    rw [if_pos ((looks_iff s).2 hl)]
    cases hd : Decode s with
    | ok r =>
      obtain ⟨hrp, d⟩ := r
      simp only [C06_panics_iff_partial, Res.ok.injEq, Prod.mk.injEq]
      exact ⟨fun h => ⟨hrp, d, ⟨rfl, rfl⟩, h⟩, fun ⟨_, _, ⟨_, e⟩, h⟩ => e ▸ h⟩
    | err m => simp
    | panic => exact absurd hd (Bech32.decode_not_panic _)
  · simp only [hl, false_and, false_or, not_false_eq_true, true_and]
    by_cases hb : B58Text s
    · obtain ⟨b, e⟩ := (b58_text_iff s).1 hb
      rw [C68_base58_text_parsed strict b s spare e hl, C06_panics_iff_partial]
      constructor
      · exact fun h => .inr ⟨b, e, h⟩
      · rintro (⟨c, hc, hn⟩ | ⟨d, e', h⟩)
        · have key : ∀ c : UInt8, c ∈ Base58.alphabet → ∃ d : Fin 58, c = b58Char d.val := forall_byte (by decide +kernel)
          obtain ⟨d, hd⟩ := key c (hb c hc)
          exact absurd hd (hn d.val d.isLt)
        · have h1 := (base58_iff _ _).2 e
          have h2 := (base58_iff _ _).2 e'
          rw [← Base58.decode_encode b, h1, ← h2, Base58.decode_encode]
          exact h
    · refine ⟨fun _ => .inl ?_, fun _ => C103_other_text_panics _ _ _ hl hb⟩
      unfold B58Text at hb
      push Not at hb
      obtain ⟨c, hc, hn⟩ := hb
      have key : ∀ d : Fin 58, b58Char d.val ∈ Base58.alphabet := by decide +kernel
      exact ⟨c, hc, fun d hd e => hn (e ▸ key ⟨d, hd⟩)⟩

end Cardano.Props
