import Verif.Bech32.Polymod
import Verif.Bech32.Bits
/-! # `Encode` and `Decode`: helper lemmas -/
set_option autoImplicit false

namespace Cardano.Bech32
open Cardano.Spec

/-! ### ASCII case -/

theorem lower8_idem (c : UInt8) : lower8 (lower8 c) = lower8 c := by
  revert c; exact forall_byte (by decide +kernel)

theorem toLower_idem (s : Bytes) : toLower (toLower s) = toLower s := by
  simp [toLower, lower8_idem]

theorem toLower_append (a b : Bytes) : toLower (a ++ b) = toLower a ++ toLower b := by simp [toLower]
theorem toUpper_append (a b : Bytes) : toUpper (a ++ b) = toUpper a ++ toUpper b := by simp [toUpper]

theorem map_eq_self {f : UInt8 → UInt8} (s : Bytes) : s.map f = s ↔ ∀ c ∈ s, f c = c := by
  induction s with
  | nil => simp
  | cons c s ih => simp [ih]

theorem toLower_eq_self (s : Bytes) : toLower s = s ↔ ∀ c ∈ s, lower8 c = c := map_eq_self s
theorem toUpper_eq_self (s : Bytes) : toUpper s = s ↔ ∀ c ∈ s, upper8 c = c := map_eq_self s

/-! ### The character table -/

/-- The character of a symbol (total; 0 outside the table). -/
def chr (d : UInt8) : UInt8 := charset.getD d.toNat 0

theorem charAt_chr (d : UInt8) (h : d.toNat < 32) : charAt d = .ok (chr d) := by
  revert h; revert d
  exact forall_byte (by decide +kernel)

theorem charIndex_chr (d : UInt8) (h : d.toNat < 32) : charIndex (chr d) = some d := by
  revert h; revert d
  exact forall_byte (by decide +kernel)

theorem charIndex_some (c d : UInt8) (h : charIndex c = some d) : d.toNat < 32 ∧ chr d = c := by
  have : ∀ c : UInt8, ∀ d ∈ charIndex c, d.toNat < 32 ∧ chr d = c := forall_byte (by decide +kernel)
  exact this c d h

theorem chr_lower (d : UInt8) (h : d.toNat < 32) : lower8 (chr d) = chr d := by
  revert h; revert d
  exact forall_byte (by decide +kernel)

theorem chr_ne_sep (d : UInt8) (h : d.toNat < 32) : chr d ≠ 49 := by
  revert h; revert d
  exact forall_byte (by decide +kernel)

theorem lower8_eq_sep (c : UInt8) : lower8 c = 49 ↔ c = 49 := by
  revert c; exact forall_byte (by decide +kernel)

theorem writeSyms_eq (vs : Bytes) (h : ∀ v ∈ vs, v.toNat < 32) : writeSyms vs = .ok (vs.map chr) := by
  induction vs with
  | nil => rfl
  | cons v vs ih =>
    simp only [writeSyms]
    rw [charAt_chr v (h v List.mem_cons_self), ih fun x hx => h x (List.mem_cons_of_mem _ hx)]
    rfl

theorem readSyms_chr (vs : Bytes) (h : ∀ v ∈ vs, v.toNat < 32) : readSyms (vs.map chr) = .ok vs := by
  induction vs with
  | nil => rfl
  | cons v vs ih =>
    simp only [List.map_cons, readSyms]
    rw [charIndex_chr v (h v List.mem_cons_self)]
    simp only []
    rw [ih fun x hx => h x (List.mem_cons_of_mem _ hx)]
    rfl

theorem readSyms_ok (cs : Bytes) : ∀ vs, readSyms cs = .ok vs → (∀ v ∈ vs, v.toNat < 32) ∧ vs.map chr = cs := by
  induction cs with
  | nil => intro vs h; cases h; simp
  | cons c cs ih =>
    intro vs h
    simp only [readSyms] at h
    split at h
    · cases h
    · rename_i d hd
      cases hr : readSyms cs with
      | ok ds =>
        rw [hr] at h
        cases h
        obtain ⟨h1, h2⟩ := ih ds hr
        obtain ⟨h3, h4⟩ := charIndex_some c d hd
        constructor
        · intro v hv
          rcases List.mem_cons.1 hv with rfl | hv
          · exact h3
          · exact h1 v hv
        · simp [h2, h4]
      | err m => rw [hr] at h; cases h
      | panic => rw [hr] at h; cases h

theorem readSyms_not_panic (cs : Bytes) : readSyms cs ≠ .panic := by
  induction cs with
  | nil => intro h; cases h
  | cons c cs ih =>
    simp only [readSyms]
    split
    · intro h; cases h
    · cases hr : readSyms cs with
      | ok ds => intro h; cases h
      | err m => intro h; cases h
      | panic => exact absurd hr ih

/-! ### The separator -/

theorem drop_sep (h cs : Bytes) (f : UInt8 → UInt8) (x : UInt8) :
    ((h ++ x :: cs).map f).drop (h.length + 1) = cs.map f := by
  induction h with
  | nil => simp
  | cons a h ih => simpa using ih

theorem lastIndex1_none (s : Bytes) (h : (49 : UInt8) ∉ s) : lastIndex1 s = none := by
  induction s with
  | nil => rfl
  | cons c s ih =>
    simp only [List.mem_cons, not_or] at h
    simp [lastIndex1, ih h.2, Ne.symm h.1]

theorem lastIndex1_sep (h cs : Bytes) (hc : (49 : UInt8) ∉ cs) : lastIndex1 (h ++ 49 :: cs) = some h.length := by
  induction h with
  | nil => simp [lastIndex1, lastIndex1_none cs hc]
  | cons c h ih => simp [lastIndex1, ih]

theorem lastIndex1_some (s : Bytes) : ∀ pos, lastIndex1 s = some pos →
    ∃ h cs, s = h ++ 49 :: cs ∧ (49 : UInt8) ∉ cs ∧ h.length = pos := by
  induction s with
  | nil => intro pos h; cases h
  | cons c s ih =>
    intro pos hp
    simp only [lastIndex1] at hp
    cases hs : lastIndex1 s with
    | some i =>
      rw [hs] at hp
      cases hp
      obtain ⟨h, cs, e, hn, hl⟩ := ih i hs
      exact ⟨c :: h, cs, by simp [e], hn, by simp [hl]⟩
    | none =>
      rw [hs] at hp
      simp only [] at hp
      split at hp
      · rename_i hc
        cases hp
        refine ⟨[], s, by simp [hc], ?_, rfl⟩
        intro hm
        have : ∀ s : Bytes, lastIndex1 s = none → (49 : UInt8) ∉ s := by
          intro s
          induction s with
          | nil => simp
          | cons d s ih2 =>
            intro h
            simp only [lastIndex1] at h
            cases h' : lastIndex1 s with
            | some i => rw [h'] at h; cases h
            | none =>
              rw [h'] at h
              simp only [] at h
              split at h
              · cases h
              · rename_i hd; simp [ih2 h', Ne.symm hd]
        exact this s hs hm
      · cases hp

/-! ### Checksum -/

theorem hrpExpand_lt (h : Bytes) : ∀ x ∈ hrpExpand h, x.toNat < 32 := by
  intro x hx
  unfold hrpExpand at hx
  simp only [List.mem_append, List.mem_map, List.mem_singleton] at hx
  have k1 : ∀ c : UInt8, (goShr8 c 5).toNat < 32 := forall_byte (by decide +kernel)
  have k2 : ∀ c : UInt8, (c &&& 31).toNat < 32 := forall_byte (by decide +kernel)
  rcases hx with (⟨c, _, rfl⟩ | rfl) | ⟨c, _, rfl⟩
  · exact k1 c
  · decide
  · exact k2 c

theorem createChecksum_six (h d : Bytes) : ∃ a b c e f g, createChecksum h d = [a,b,c,e,f,g] :=
  ⟨_, _, _, _, _, _, rfl⟩

theorem createChecksum_lt (h d : Bytes) : ∀ x ∈ createChecksum h d, x.toNat < 32 := by
  intro x hx
  unfold createChecksum at hx
  simp only [List.mem_map] at hx
  obtain ⟨p, _, rfl⟩ := hx
  have k2 : ∀ c : UInt8, (c &&& 31).toNat < 32 := forall_byte (by decide +kernel)
  exact k2 _

theorem createChecksum_length (h d : Bytes) : (createChecksum h d).length = 6 := by
  simp [createChecksum]

theorem digit_toNat (m : UInt32) (k : Nat) : ((goShr32 m k).toUInt8 &&& 31).toNat = m.toNat / 2 ^ k % 32 := by
  have := maxv_and (goShr32 m k).toUInt8 5 (by omega)
  have e : maxv 5 = 31 := by decide
  rw [e, toUInt8_mod _ 5 (by omega), goShr32_toNat] at this
  exact this

theorem fold6 (c : UInt32) (xs : Bytes) (hx : xs.length = 6) (h : ∀ x ∈ xs, x.toNat < 32) :
    (xs.foldl polymodStep c) = linPow 6 c ^^^ xs.foldl polymodStep 0 := by
  have := foldl_xor (List.replicate 6 0) xs c 0 (by simp [hx])
  have e : xorList (List.replicate 6 0) xs = xs := by
    match xs, hx with
    | [a,b,c,d,e,f], _ => simp [xorList, List.replicate]
  rw [e, foldl_replicate] at this
  simpa using this

theorem fold6_digits (m : UInt32) (hm : m.toNat < 2^30) :
    ((List.range 6).map fun p => (goShr32 m (5 * (5 - p))).toUInt8 &&& 31).foldl polymodStep 0 = m := by
  have e : ((List.range 6).map fun p => (goShr32 m (5 * (5 - p))).toUInt8 &&& 31) =
      [(goShr32 m 25).toUInt8 &&& 31, (goShr32 m 20).toUInt8 &&& 31, (goShr32 m 15).toUInt8 &&& 31,
       (goShr32 m 10).toUInt8 &&& 31, (goShr32 m 5).toUInt8 &&& 31, (goShr32 m 0).toUInt8 &&& 31] := rfl
  rw [e]
  apply UInt32.toNat_inj.1
  rw [fold6_zero]
  · unfold pack6
    simp only [digit_toNat]
    omega
  all_goals rw [digit_toNat]; exact Nat.mod_lt _ (by omega)

theorem polymod_append (a b : Bytes) : polymod (a ++ b) = b.foldl polymodStep (polymod a) := by
  simp [polymod]

theorem polymod_lt (a : Bytes) (h : ∀ x ∈ a, x.toNat < 32) : (polymod a).toNat < 2^30 :=
  foldl_lt a 1 (by decide) h

theorem verify_create (h d : Bytes) : verifyChecksum h (d ++ createChecksum h d) = true := by
  unfold verifyChecksum
  rw [← List.append_assoc, polymod_append, fold6 _ _ (createChecksum_length h d) (createChecksum_lt h d)]
  have hm : (polymod (hrpExpand h ++ d ++ [0,0,0,0,0,0])) = linPow 6 (polymod (hrpExpand h ++ d)) := by
    rw [polymod_append]; exact foldl_replicate 6 _
  have hlt : (linPow 6 (polymod (hrpExpand h ++ d)) ^^^ 1).toNat < 2^30 := by
    rw [UInt32.toNat_xor]
    exact Nat.xor_lt_two_pow (n := 30) (lin_lt _) (by decide)
  have : (createChecksum h d).foldl polymodStep 0 = linPow 6 (polymod (hrpExpand h ++ d)) ^^^ 1 := by
    unfold createChecksum
    simp only []
    rw [hm]
    exact fold6_digits _ hlt
  rw [this, ← UInt32.xor_assoc]
  simp

/-- Six trailing symbols are determined by the polymod value. -/
theorem six_unique (c : UInt32) (xs ys : Bytes) (hx : xs.length = 6) (hy : ys.length = 6)
    (bx : ∀ x ∈ xs, x.toNat < 32) (bY : ∀ x ∈ ys, x.toNat < 32)
    (h : xs.foldl polymodStep c = ys.foldl polymodStep c) : xs = ys := by
  rw [fold6 c xs hx bx, fold6 c ys hy bY] at h
  have h' : xs.foldl polymodStep 0 = ys.foldl polymodStep 0 := by
    have := congrArg (linPow 6 c ^^^ ·) h
    simpa [← UInt32.xor_assoc] using this
  have h2 := congrArg UInt32.toNat h'
  match xs, hx, ys, hy with
  | [a,b,c,d,e,f], _, [a',b',c',d',e',f'], _ =>
    simp only [List.mem_cons, List.not_mem_nil, or_false, forall_eq_or_imp, forall_eq] at bx bY
    obtain ⟨x1,x2,x3,x4,x5,x6⟩ := bx
    obtain ⟨y1,y2,y3,y4,y5,y6⟩ := bY
    rw [fold6_zero _ _ _ _ _ _ x1 x2 x3 x4 x5 x6, fold6_zero _ _ _ _ _ _ y1 y2 y3 y4 y5 y6] at h2
    unfold pack6 at h2
    have e1 : a = a' := UInt8.toNat_inj.1 (by omega)
    have e2 : b = b' := UInt8.toNat_inj.1 (by omega)
    have e3 : c = c' := UInt8.toNat_inj.1 (by omega)
    have e4 : d = d' := UInt8.toNat_inj.1 (by omega)
    have e5 : e = e' := UInt8.toNat_inj.1 (by omega)
    have e6 : f = f' := UInt8.toNat_inj.1 (by omega)
    subst e1 e2 e3 e4 e5 e6; rfl

/-! ### Encode / Decode characterised -/

/-- What `Encode` returns on a lower-case hrp. -/
theorem encode_lower (h d : Bytes) (hne : h ≠ []) (hok : hrpCharsOk h = true) (hlow : toLower h = h) :
    ∃ vs, convertBits d 8 5 true = .ok vs ∧ (∀ v ∈ vs, v.toNat < 32) ∧
      Encode h d = .ok (h ++ [49] ++ vs.map chr ++ (createChecksum h vs).map chr) := by
  obtain ⟨vs, p, hc, hlt, _⟩ := convert_pad 8 5 (by omega) (by omega) (by omega) d
    (fun x _ => by have := UInt8.toNat_lt x; simpa using this)
  refine ⟨vs, hc, hlt, ?_⟩
  unfold Encode
  have hl : ¬ h.length < 1 := by
    have := List.length_pos_iff.2 hne; omega
  simp only [hc, Res.ok_bind, hl, if_false, hok, Bool.not_true, Bool.false_eq_true, hlow, decide_true, if_true]
  rw [if_neg (fun hh => hh.2 rfl), writeSyms_eq vs hlt, writeSyms_eq _ (createChecksum_lt h vs)]
  rfl

/-- What a successful `Decode` means. -/
theorem decode_ok (s h d : Bytes) (hs : Decode s = .ok (h, d)) :
    ∃ cs vs, s = h ++ 49 :: cs ∧ (49 : UInt8) ∉ cs ∧ h ≠ [] ∧ 6 ≤ vs.length ∧ hrpCharsOk h = true ∧
      (toLower s = s ∨ toUpper s = s) ∧
      toLower cs = vs.map chr ∧ (∀ v ∈ vs, v.toNat < 32) ∧ polymod (hrpExpand h ++ vs) = 1 ∧
      convertBits (vs.take (vs.length - 6)) 5 8 false = .ok d := by
  unfold Decode at hs
  split at hs
  · cases hs
  rename_i hcase
  split at hs
  · cases hs
  rename_i pos hpos
  split at hs
  · cases hs
  rename_i hp
  simp only [] at hs
  split at hs
  · cases hs
  rename_i hok
  obtain ⟨h', cs, e, hn, hl⟩ := lastIndex1_some s pos hpos
  have ht : s.take pos = h' := by rw [e, ← hl]; simp
  have hd : (toLower s).drop (pos + 1) = toLower cs := by
    rw [e, ← hl]; exact drop_sep _ _ _ _
  rw [ht, hd] at hs
  rw [ht] at hok
  cases hr : readSyms (toLower cs) with
  | err m => rw [hr] at hs; cases hs
  | panic => exact absurd hr (readSyms_not_panic _)
  | ok vs =>
    rw [hr] at hs
    simp only [Res.ok_bind] at hs
    split at hs
    · cases hs
    rename_i hv
    cases hc : convertBits (vs.take (vs.length - 6)) 5 8 false with
    | err m => rw [hc] at hs; cases hs
    | panic => rw [hc] at hs; cases hs
    | ok out =>
      rw [hc] at hs
      cases hs
      obtain ⟨g1, g2⟩ := readSyms_ok _ _ hr
      have hlen : vs.length = cs.length := by
        have := congrArg List.length g2
        simpa [toLower] using this
      have hslen : s.length = pos + 1 + cs.length := by rw [e]; simp [hl]; omega
      refine ⟨cs, vs, e, hn, ?_, by omega, by simpa using hok, ?_, g2.symm, g1, ?_, hc⟩
      · intro hnil; rw [hnil] at hl; simp at hl; omega
      · by_cases hq : toLower s = s
        · exact .inl hq
        · right; exact Classical.byContradiction fun h2 => hcase ⟨hq, h2⟩
      · simpa [verifyChecksum] using hv

/-- Sufficient condition for `Decode`. -/
theorem decode_of (h d cs vs : Bytes) (hn : (49 : UInt8) ∉ cs) (hne : h ≠ []) (hlen : 6 ≤ vs.length)
    (hok : hrpCharsOk h = true) (hcase : toLower (h ++ 49 :: cs) = h ++ 49 :: cs ∨ toUpper (h ++ 49 :: cs) = h ++ 49 :: cs)
    (hcs : toLower cs = vs.map chr) (hlt : ∀ v ∈ vs, v.toNat < 32) (hpm : polymod (hrpExpand h ++ vs) = 1)
    (hcv : convertBits (vs.take (vs.length - 6)) 5 8 false = .ok d) :
    Decode (h ++ 49 :: cs) = .ok (h, d) := by
  unfold Decode
  have hclen : vs.length = cs.length := by
    have := congrArg List.length hcs
    simpa [toLower] using this.symm
  have h1 : ¬ (toLower (h ++ 49 :: cs) ≠ h ++ 49 :: cs ∧ toUpper (h ++ 49 :: cs) ≠ h ++ 49 :: cs) := by
    rintro ⟨a, b⟩; rcases hcase with h | h
    · exact a h
    · exact b h
  rw [if_neg h1, lastIndex1_sep h cs hn]
  simp only []
  have hl := List.length_pos_iff.2 hne
  rw [if_neg (by simp only [List.length_append, List.length_cons]; omega)]
  simp only [List.take_left, hok, Bool.not_true, Bool.false_eq_true, if_false]
  have hd : (toLower (h ++ 49 :: cs)).drop (h.length + 1) = toLower cs := drop_sep _ _ _ _
  rw [hd, hcs, readSyms_chr vs hlt]
  simp only [Res.ok_bind, verifyChecksum, hpm, beq_self_eq_true, Bool.not_true, Bool.false_eq_true, if_false, hcv]
  rfl

theorem decode_not_panic (s : Bytes) : Decode s ≠ .panic := by
  intro hd
  unfold Decode at hd
  repeat' split at hd
  all_goals first | (cases hd; done) | skip
  simp only [] at hd
  split at hd
  · cases hd
  cases hr : readSyms ((toLower s).drop (_ + 1)) with
  | panic => exact readSyms_not_panic _ hr
  | err m => rw [hr] at hd; cases hd
  | ok vs =>
    rw [hr] at hd
    simp only [Res.ok_bind] at hd
    split at hd
    · cases hd
    cases hc : convertBits (vs.take (vs.length - 6)) 5 8 false with
    | ok out => rw [hc] at hd; cases hd
    | err m => rw [hc] at hd; cases hd
    | panic =>
      have := convertLoop_spec 5 8 (by omega) (by omega) (by omega) (vs.take (vs.length - 6)) 0 0 [] (by omega) (by simp)
      unfold convertBits at hc
      split at this
      · obtain ⟨a, b, r, e, _⟩ := this
        rw [e] at hc
        simp only [] at hc
        repeat' split at hc
        all_goals cases hc
      · rw [this] at hc; cases hc

end Cardano.Bech32
