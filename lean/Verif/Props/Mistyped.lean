import Verif.Props.MistypedLemmas
/-!
# C148: mistyped Byron addresses

The text of a Byron address carries no checksum of its own; what guards it is the CRC-32 inside the bytes. That check covers the bytes, not the characters: one
character of Base58 changes many bytes at once, among them the ones that say how to read the others.
-/
set_option autoImplicit false

namespace Cardano.Props
open Cardano.Spec Cardano.Addr Cbor Byron Typo

/-- A Byron address as most main net wallets made them: root hash of 28 bytes, no attributes, type 0; written in 43 bytes, as all but one in 65536 of them are (the others have a checksum below
65536, which is written shorter). -/
def PlainByron (b : ByronAddress) : Prop :=
  b.hash.length = 28 ∧ b.attributes = ⟨[], none⟩ ∧ b.tag = 0 ∧ (bytes (.byron b)).length = 43

namespace Mistyped

/-- The number of a plain address. -/
structure PlainNumber (n : Nat) : Prop where
  front : n / 256 ^ 35 = front
  tail : n / 256 ^ 5 % 65536 = 0xa000
  sum : n % 256 ^ 5 = 0x1a * 2 ^ 32 + (Crc32.checksum (payloadOf n)).toNat
  large : 65536 ≤ (Crc32.checksum (payloadOf n)).toNat

theorem not_true {t r : Bytes} {c : Item} {n : Nat} (h : readItem 41 (0xf5 :: t) = some (c, r)) (hd : Denotes c n) : False := by
  have : readItem 41 (0xf5 :: t) = some (.simple 21, t) := rfl
  rw [this] at h
  cases h
  cases hd <;> omega

theorem noticed {strict : Bool} {n n' d : Nat} (hn : PlainNumber n) (hd : harmless d = true) (h : n' = n + d ∨ n = n' + d) (b : ByronAddress) :
    unmarshal strict (beBytes 43 n') ≠ .ok b := by
  intro hok
  have hcrc := (Crc32.checksum (payloadOf n)).toNat_lt
  obtain ⟨h1, h2, h3, h4⟩ := hn
  unfold harmless at hd
  simp only [Bool.and_eq_true, decide_eq_true_eq, List.all_eq_true, Bool.or_eq_true, beq_iff_eq] at hd
  obtain ⟨⟨⟨d1, d2⟩, d3⟩, d4⟩ := hd
  have hf : n' / 256 ^ 35 = front - 1 ∨ n' / 256 ^ 35 = front ∨ n' / 256 ^ 35 = front + 1 := by
    unfold front at h1 ⊢
    omega
  obtain ⟨g1, g2, c, r, g3, g4⟩ := accepted_number hf hok
  obtain ⟨k1, k2⟩ := d4 _ g2
  have same : n' / 256 ^ 5 % 65536 = 0xa000 → d < 2 ^ 40 → False := by
    intro e1 e2
    have eq : n' / 256 ^ 5 = n / 256 ^ 5 := by omega
    have ep : payloadOf n' = payloadOf n := by unfold payloadOf; rw [eq]
    rw [ep] at g4
    have ev : beVal (beBytes 5 n') = n' % 256 ^ 5 := beVal_beBytes _ _
    rcases denotes_five g4 (beBytes_length _ _) g3 h4 with ⟨t, e, ht⟩ | ⟨t, e, ht⟩
    · have hl : t.length = 4 := by have := congrArg List.length e; rw [beBytes_length] at this; simpa using this.symm
      rw [e, beVal_cons, hl, ht] at ev
      rw [show (0x1a : UInt8).toNat = 26 by rfl] at ev
      omega
    · have hl : t.length = 3 := by have := congrArg List.length e; rw [beBytes_length] at this; simpa using this.symm
      rw [e, beVal_cons, beVal_cons, List.length_cons, hl, ht] at ev
      rw [show (0xc2 : UInt8).toNat = 0xc2 by rfl, show (0x43 : UInt8).toNat = 0x43 by rfl] at ev
      omega
  have hs : n' / 256 ^ 5 % 65536 < 65536 := Nat.mod_lt _ (by decide)
  rcases h with h | h
  · rcases k1 with ⟨a, b⟩ | ⟨a, b⟩
    · omega
    · exact same a b
  · rcases k2 with (⟨a, b⟩ | ⟨a, b⟩) | a
    · omega
    · exact same a b
    · have e1 : n' % 256 ^ 5 / 256 ^ 4 = 0xf5 := by omega
      have e2 : beBytes 5 n' = 0xf5 :: beBytes 4 n' := by
        have e3 : n' / 256 ^ 4 % 256 = 0xf5 := by omega
        have e4 : beBytes 1 (n' / 256 ^ 4) = [0xf5] := by
          rw [← beBytes_mod 1 (n' / 256 ^ 4), Nat.pow_one, e3]
          rfl
        rw [show (5 : Nat) = 1 + 4 by rfl, beBytes_add 1 4 n', e4]
        rfl
      rw [e2] at g3
      exact not_true g3 g4

/-! ## The number and the text of a plain address -/

theorem plain_bytes {b : ByronAddress} (h : PlainByron b) : rawBytes b = 0x83 :: 0x58 :: 0x1c :: (b.hash ++ [0xa0, 0]) ∧
    Byron.bytes b = 0x82 :: 0xd8 :: 0x18 :: 0x58 :: 0x21 :: (rawBytes b ++ 0x1a :: beBytes 4 (Crc32.checksum (rawBytes b)).toNat) ∧ 65536 ≤ (Crc32.checksum (rawBytes b)).toNat := by
  obtain ⟨h1, h2, h3, h4⟩ := h
  have e1 : rawBytes b = 0x83 :: 0x58 :: 0x1c :: (b.hash ++ [0xa0, 0]) := by
    have a0 : attrBytes ⟨[], none⟩ = [0xa0] := by decide
    have a1 : encUint 0 = [0] := by decide
    have a2 : encHead 0x80 (UInt64.ofNat 3) = [0x83] := by decide
    have a3 : encHead 0x40 (UInt64.ofNat 28) = [0x58, 0x1c] := by decide
    unfold rawBytes encArray encBytes
    rw [h2, h3, h1, a0, a1, a3]
    simp only [List.length_cons, List.length_nil, List.flatten_cons, List.flatten_nil, List.append_nil, List.cons_append, List.nil_append]
    rw [show UInt64.ofNat (0 + 1 + 1 + 1) = UInt64.ofNat 3 by rfl, a2]
    rfl
  have hr : (rawBytes b).length = 33 := by rw [e1]; simp [h1]
  have hlt := (Crc32.checksum (rawBytes b)).toNat_lt
  have hs := Byron.bytes_split b
  rw [hr, show encHead 0x40 (UInt64.ofNat 33) = [0x58, 0x21] by decide] at hs
  change (Byron.bytes b).length = 43 at h4
  have hu : (encUint (UInt64.ofNat (Crc32.checksum (rawBytes b)).toNat)).length = 5 := by
    rw [hs] at h4
    simp only [List.length_cons, List.length_append, hr, List.length_nil] at h4
    omega
  have hn : (UInt64.ofNat (Crc32.checksum (rawBytes b)).toNat).toNat = (Crc32.checksum (rawBytes b)).toNat := by
    rw [UInt64.toNat_ofNat']; omega
  unfold encUint encHead at hu hs
  rw [hn] at hu hs
  split at hu
  · simp at hu
  split at hu
  · simp [beBytes_length] at hu
  split at hu
  · simp [beBytes_length] at hu
  rename_i g1 g2 g3
  rw [if_neg g1, if_neg g2, if_neg g3, if_pos (by omega)] at hs
  exact ⟨e1, by rw [hs]; rfl, by omega⟩

theorem plain_number {b : ByronAddress} (h : PlainByron b) : PlainNumber (beVal (Byron.bytes b)) ∧ Byron.bytes b = beBytes 43 (beVal (Byron.bytes b)) := by
  have hl : (Byron.bytes b).length = 43 := h.2.2.2
  have hb : Byron.bytes b = beBytes 43 (beVal (Byron.bytes b)) := by
    have := beBytes_beVal (Byron.bytes b)
    rw [hl] at this
    exact this.symm
  refine ⟨?_, hb⟩
  obtain ⟨e1, e2, e3⟩ := plain_bytes h
  have hh := h.1
  have hn : beVal (Byron.bytes b) < 256 ^ 43 := by
    have := beVal_lt (Byron.bytes b)
    rwa [hl] at this
  generalize beVal (Byron.bytes b) = n at *
  have s1 : beBytes 43 n = beBytes 8 (n / 256 ^ 35) ++ (beBytes 30 (n / 256 ^ 5) ++ beBytes 5 n) := by
    rw [show 43 = 8 + (30 + 5) by rfl, beBytes_add 8 (30 + 5) n, beBytes_add 30 5 n]
  generalize hc : Crc32.checksum (rawBytes b) = crc at *
  rw [e2, s1, e1] at hb
  have s2 : (0x82 :: 0xd8 :: 0x18 :: 0x58 :: 0x21 :: (0x83 :: 0x58 :: 0x1c :: (b.hash ++ [0xa0, 0]) ++ 0x1a :: beBytes 4 crc.toNat) : Bytes) =
      [0x82, 0xd8, 0x18, 0x58, 0x21, 0x83, 0x58, 0x1c] ++ ((b.hash ++ [0xa0, 0]) ++ 0x1a :: beBytes 4 crc.toNat) := by simp
  rw [s2] at hb
  obtain ⟨b1, b2⟩ := List.append_inj hb (by rw [beBytes_length]; rfl)
  obtain ⟨b3, b4⟩ := List.append_inj b2 (by rw [beBytes_length]; simp [hh])
  have hp : payloadOf n = rawBytes b := by rw [payloadOf, ← b3, e1]
  have b5 : beBytes 30 (n / 256 ^ 5) = beBytes 28 (n / 256 ^ 5 / 256 ^ 2) ++ beBytes 2 (n / 256 ^ 5) := beBytes_add 28 2 _
  rw [b5] at b3
  obtain ⟨-, b6⟩ := List.append_inj b3 (by rw [beBytes_length, hh])
  have v1 := congrArg beVal b1
  have v2 := congrArg beVal b6
  have v3 := congrArg beVal b4
  rw [beVal_beBytes] at v1 v2 v3
  rw [beVal_cons, beBytes_length, beVal_beBytes] at v3
  have hlt := crc.toNat_lt
  rw [show beVal [0x82, 0xd8, 0x18, 0x58, 0x21, 0x83, 0x58, 0x1c] = front by decide +kernel] at v1
  rw [show beVal [0xa0, 0] = 0xa000 by decide +kernel] at v2
  rw [show (0x1a : UInt8).toNat = 26 by rfl] at v3
  refine ⟨?_, ?_, ?_, ?_⟩
  · rw [v1]; omega
  · rw [v2]
  · rw [hp, hc]; omega
  · rw [hp, hc]; exact e3

theorem value_text {s : Bytes} {acc n : Nat} (h : Base58.value s acc = some n) : B58Text s := by
  by_contra hb
  rw [value_none s hb] at h
  cases h

theorem index_char (c : UInt8) (d : Nat) (h : Base58.index c = some d) : Base58.alphabet.getD d 0 = c := by
  have : ∀ c : UInt8, (match Base58.index c with
    | some d => Base58.alphabet.getD d 0 == c
    | none => true) = true := forall_byte (by decide +kernel)
  have h2 := this c
  rw [h] at h2
  exact eq_of_beq h2

theorem plain_text {b : ByronAddress} (h : PlainByron b) : ∃ r : Bytes, Base58.encode (Byron.bytes b) = 65 :: 101 :: r ∧ r.length = 57 ∧ B58Text r ∧
    Base58.value (65 :: 101 :: r) 0 = some (beVal (Byron.bytes b)) := by
  have hp := (plain_number h).1.front
  obtain ⟨t, ht⟩ := Byron.bytes_cons b
  have hlead : Base58.leading 0 (Byron.bytes b) = 0 := by rw [ht]; rfl
  generalize hn : beVal (Byron.bytes b) = n at *
  have e1 : Base58.encode (Byron.bytes b) = (Base58.digits 58 (n + 1) n).map fun d => Base58.alphabet.getD d 0 := by
    unfold Base58.encode
    rw [hlead, hn]
    rfl
  have e2 : Base58.value (Base58.encode (Byron.bytes b)) 0 = some n := by
    rw [e1, Base58.value_digits _ (Base58.digits_lt 58 (by omega) _ _), Base58.digits_val 58 (by omega) _ _ (by omega)]
  have hlo : front * 256 ^ 35 ≤ n := by unfold front at hp ⊢; omega
  have hhi : n < (front + 1) * 256 ^ 35 := by unfold front at hp ⊢; omega
  unfold front at hlo hhi
  have h0 : 0 < n := by omega
  cases hd : Base58.digits 58 (n + 1) n with
  | nil =>
    rw [hd] at e1
    rw [e1] at e2
    cases e2
    omega
  | cons d ds =>
    have d0 := Base58.digits_lead 58 (by omega) (n + 1) n (by omega) d ds hd
    have dl : ∀ x ∈ d :: ds, x < 58 := by rw [← hd]; exact Base58.digits_lt 58 (by omega) _ _
    have d1 := dl d List.mem_cons_self
    rw [hd, List.map_cons] at e1
    generalize hr : (ds.map fun d => Base58.alphabet.getD d 0) = r at *
    have hidx : ∀ d : Fin 58, Base58.index (Base58.alphabet.getD d.val 0) = some d.val := by decide +kernel
    rw [e1] at e2 ⊢
    have e3 := e2
    rw [Base58.value, hidx ⟨d, d1⟩] at e3
    simp only [Nat.zero_mul, Nat.zero_add] at e3
    have hb := value_text e3
    obtain ⟨n', g1, g2, g3⟩ := value_some r hb d
    rw [e3] at g1
    cases g1
    have hk : r.length = 58 := by
      rcases Nat.lt_trichotomy r.length 58 with hk | hk | hk
      · have q1 : (d + 1) * 58 ^ r.length ≤ 58 * 58 ^ 57 := Nat.mul_le_mul (by omega) (Nat.pow_le_pow_right (by omega) (by omega))
        omega
      · exact hk
      · have q1 : 1 * 58 ^ 59 ≤ d * 58 ^ r.length := Nat.mul_le_mul (by omega) (Nat.pow_le_pow_right (by omega) (by omega))
        omega
    rw [hk] at g2 g3
    have d9 : d = 9 := by omega
    subst d9
    cases r with
    | nil => simp at hk
    | cons c r =>
      obtain ⟨d', l1, l2⟩ := (index_some c).1 (hb c List.mem_cons_self)
      have hk' : r.length = 57 := by simpa using hk
      rw [Base58.value, l2] at e3
      simp only at e3
      obtain ⟨n', g1, g4, g5⟩ := value_some r (fun x hx => hb x (List.mem_cons_of_mem _ hx)) (9 * 58 + d')
      rw [e3] at g1
      cases g1
      rw [hk'] at g4 g5
      have d37 : d' = 37 := by omega
      subst d37
      have hc : c = 101 := by rw [← index_char c 37 l2]; decide
      subst hc
      exact ⟨r, rfl, hk', fun x hx => hb x (List.mem_cons_of_mem _ hx), e2⟩

/-- A text that begins with a character other than `a` and `s` is not taken for Bech32. -/
theorem not_bech32 (c : UInt8) (t : Bytes) (h1 : c ≠ 97) (h2 : c ≠ 115) : ¬ LooksBech32 (c :: t) := by
  rintro (⟨t, e⟩ | ⟨t, e⟩)
  · exact h1 (List.cons.inj e).1.symm
  · exact h2 (List.cons.inj e).1.symm

theorem value_shift (s : Bytes) : ∀ acc n x, Base58.value s acc = some n → Base58.value s (acc + x) = some (n + x * 58 ^ s.length) := by
  induction s with
  | nil => intro acc n x h; cases h; simp [Base58.value]
  | cons c s ih =>
    intro acc n x h
    rw [Base58.value] at h ⊢
    cases hc : Base58.index c with
    | none => rw [hc] at h; cases h
    | some d =>
      rw [hc] at h
      simp only at h ⊢
      rw [show (acc + x) * 58 + d = acc * 58 + d + x * 58 by rw [Nat.add_mul]; omega, ih _ _ (x * 58) h, List.length_cons, Nat.pow_succ, Nat.mul_assoc, Nat.mul_comm 58]

/-- The bytes of a text that does not begin with `1`. -/
theorem decode_value {c : UInt8} {t : Bytes} {n : Nat} (hc : c ≠ 49) (h : Base58.value (c :: t) 0 = some n) : Base58.decode (c :: t) = Base58.natBytes n := by
  unfold Base58.decode
  rw [h]
  simp only [Base58.leading, if_neg hc, List.replicate_zero, List.nil_append]

theorem noticed_text {strict : Bool} {t spare : Bytes} {n n' d : Nat} (hn : PlainNumber n) (hd : harmless d = true) (h : n' = n + d ∨ n = n' + d)
    (hv : Base58.value (65 :: t) 0 = some n') : ∃ m, NewAddress strict (65 :: t) spare = .err m := by
  have hd2 : d < 2 ^ 280 := by
    unfold harmless at hd
    simp only [Bool.and_eq_true, decide_eq_true_eq] at hd
    exact hd.1.1.2
  have hf := hn.front
  unfold front at hf
  have e1 : n' / 256 ^ 42 = 0x82 := by omega
  rw [Typo.newAddress_base58 _ _ _ (not_bech32 65 t (by decide) (by decide)), decode_value (by decide) hv, natBytes_eq (k := 42) (by omega) (by omega)]
  have hok := noticed (strict := strict) hn hd h
  have e2 : beBytes 43 n' = 0x82 :: beBytes 42 n' := by
    rw [show (43 : Nat) = 42 + 1 by rfl, beBytes, e1]
    rfl
  show ∃ m, NewAddressFromBytes strict (beBytes 43 n') spare = .err m
  rw [e2] at hok ⊢
  rw [parse_byron _ _ _ _ (by decide)]
  cases hu : unmarshal strict (0x82 :: beBytes 42 n') with
  | ok b => exact absurd hu (hok b)
  | err m => exact ⟨m, rfl⟩
  | panic => exact absurd hu (byron_not_panic _ _)

theorem value_pre {a b : Bytes} {n : Nat} (h : Base58.value (a ++ b) 0 = some n) : ∃ p, Base58.value a 0 = some p ∧ Base58.value b p = some n := by
  have hb := value_text h
  obtain ⟨p, h1, -⟩ := value_some a (fun x hx => hb x (List.mem_append_left _ hx)) 0
  exact ⟨p, h1, by rw [← h, value_append a b 0 p h1]⟩

/-- The first characters of a plain address. -/
theorem plain_front {b : ByronAddress} (h : PlainByron b) {pre post : Bytes} (hs : string (.byron b) = .ok (pre ++ post)) (hp : post.length ≤ 58) :
    ∃ t, pre = 65 :: t ∧ Base58.value (pre ++ post) 0 = some (beVal (Byron.bytes b)) ∧ pre.length + post.length = 59 := by
  obtain ⟨r, e1, e2, -, e4⟩ := plain_text h
  have e5 : pre ++ post = 65 :: 101 :: r := by
    rw [← e1]
    exact (Res.ok.inj hs).symm
  have hl : pre.length + post.length = 59 := by
    have := congrArg List.length e5
    simpa [e2] using this
  cases pre with
  | nil => simp at hl; omega
  | cons c t =>
    have : c = 65 := (List.cons.inj e5).1
    subst this
    exact ⟨t, rfl, by rw [e5]; exact e4, hl⟩

/-- Texts whose bytes are taken for a base address but are too few. -/
theorem panics_text {strict : Bool} {c : UInt8} {t spare : Bytes} {d m : Nat} (h1 : c ≠ 97) (h2 : c ≠ 115) (h3 : c ≠ 49) (hd : Base58.index c = some d) (ht : B58Text t)
    (hlo : 256 ^ m ≤ d * 58 ^ t.length) (hhi : (d + 1) * 58 ^ t.length ≤ 64 * 256 ^ m) (hs : m + 1 + spare.length < 57) : NewAddress strict (c :: t) spare = .panic := by
  obtain ⟨n, e, l1, l2⟩ := value_some t ht d
  have hv : Base58.value (c :: t) 0 = some n := by
    rw [Base58.value, hd]
    simp only [Nat.zero_mul, Nat.zero_add]
    exact e
  have hpos : 0 < 256 ^ m := Nat.pow_pos (by decide)
  have u1 : n < 64 * 256 ^ m := Nat.lt_of_lt_of_le l2 hhi
  have u2 : n < 256 ^ (m + 1) := by rw [Nat.pow_succ]; omega
  rw [Typo.newAddress_base58 _ _ _ (not_bech32 c t h1 h2), decode_value h3 hv, natBytes_eq (Nat.le_trans hlo l1) u2, beBytes]
  have u3 : n / 256 ^ m < 64 := Nat.div_lt_of_lt_mul (by rw [Nat.mul_comm]; exact u1)
  have u4 : (UInt8.ofNat (n / 256 ^ m)).toNat = n / 256 ^ m := by rw [UInt8.toNat_ofNat']; exact Nat.mod_eq_of_lt (Nat.lt_trans u3 (by decide))
  rw [parse_base _ _ _ _ (by rw [u4]; omega), if_neg]
  rw [List.length_cons, beBytes_length]
  omega

end Mistyped
open Mistyped

/-- **C148 (one character wrong, partial).** If one of the last 46 of the 59 characters of a plain Byron address is replaced by another one of the Base58 alphabet, `NewAddress` returns an error.
Missing: the first 13 characters; there it is false, see `C148_first_unnoticed` and `C148_case_unnoticed`. -/
theorem C148_replaced_partial (strict : Bool) (b : ByronAddress) (hb : PlainByron b) (pre post spare : Bytes) (c c' : UInt8)
    (hs : string (.byron b) = .ok (pre ++ c :: post)) (hp : post.length ≤ 45) (hc : c' ≠ c) (hc' : c' ∈ Base58.alphabet) :
    ∃ m, NewAddress strict (pre ++ c' :: post) spare = .err m := by
  obtain ⟨t, rfl, hv, -⟩ := plain_front hb hs (by simp; omega)
  have hn := (plain_number hb).1
  generalize beVal (Byron.bytes b) = n at *
  have ht := value_text hv
  obtain ⟨p, h1, h2⟩ := value_pre hv
  obtain ⟨d, hd, e⟩ := (index_some c).1 (ht c (by simp))
  obtain ⟨d', hd', e'⟩ := (index_some c').1 hc'
  have hne : d ≠ d' := by
    rintro rfl
    exact hc ((index_char c' d e').symm.trans (index_char c d e))
  rw [Base58.value, e] at h2
  simp only at h2
  have key : ∀ n', Base58.value post (p * 58 + d') = some n' → Base58.value (65 :: (t ++ c' :: post)) 0 = some n' := by
    intro n' h
    rw [show (65 :: (t ++ c' :: post) : Bytes) = (65 :: t) ++ c' :: post by rfl, value_append _ _ _ _ h1, Base58.value, e']
    exact h
  obtain ⟨n', h3, -⟩ := value_some post (fun x hx => ht x (by simp [hx])) (p * 58 + d')
  have h4 := key n' h3
  rcases Nat.lt_or_gt_of_ne hne with hlt | hlt
  · have h5 := value_shift post _ _ (d' - d) h2
    rw [show p * 58 + d + (d' - d) = p * 58 + d' by omega, h3] at h5
    exact noticed_text hn (harmless_replaced post.length hp (d' - d) (by omega) (by omega)) (.inl (Option.some.inj h5)) h4
  · have h5 := value_shift post _ _ (d - d') h3
    rw [show p * 58 + d' + (d - d') = p * 58 + d by omega, h2] at h5
    exact noticed_text hn (harmless_replaced post.length hp (d - d') (by omega) (by omega)) (.inr (Option.some.inj h5)) h4

/-- **C148 (two characters exchanged, partial).** If two different neighbours among the last 45 characters of a plain Byron address are exchanged, `NewAddress` returns an error. -/
theorem C148_exchanged_partial (strict : Bool) (b : ByronAddress) (hb : PlainByron b) (pre post spare : Bytes) (c c' : UInt8)
    (hs : string (.byron b) = .ok (pre ++ c :: c' :: post)) (hp : post.length ≤ 43) (hc : c' ≠ c) :
    ∃ m, NewAddress strict (pre ++ c' :: c :: post) spare = .err m := by
  obtain ⟨t, rfl, hv, -⟩ := plain_front hb hs (by simp; omega)
  have hn := (plain_number hb).1
  generalize beVal (Byron.bytes b) = n at *
  have ht := value_text hv
  obtain ⟨p, h1, h2⟩ := value_pre hv
  obtain ⟨d, hd, e⟩ := (index_some c).1 (ht c (by simp))
  obtain ⟨d', hd', e'⟩ := (index_some c').1 (ht c' (by simp))
  have hne : d ≠ d' := by
    rintro rfl
    exact hc ((index_char c' d e').symm.trans (index_char c d e))
  rw [Base58.value, e] at h2
  simp only at h2
  rw [Base58.value, e'] at h2
  simp only at h2
  have key : ∀ n', Base58.value post ((p * 58 + d') * 58 + d) = some n' → Base58.value (65 :: (t ++ c' :: c :: post)) 0 = some n' := by
    intro n' h
    rw [show (65 :: (t ++ c' :: c :: post) : Bytes) = (65 :: t) ++ c' :: c :: post by rfl, value_append _ _ _ _ h1, Base58.value, e']
    simp only
    rw [Base58.value, e]
    exact h
  obtain ⟨n', h3, -⟩ := value_some post (fun x hx => ht x (by simp [hx])) ((p * 58 + d') * 58 + d)
  have h4 := key n' h3
  rcases Nat.lt_or_gt_of_ne hne with hlt | hlt
  · have h5 := value_shift post _ _ (57 * (d' - d)) h2
    rw [show (p * 58 + d) * 58 + d' + 57 * (d' - d) = (p * 58 + d') * 58 + d by omega, h3] at h5
    exact noticed_text hn (harmless_exchanged post.length hp (d' - d) (by omega) (by omega)) (.inl (Option.some.inj h5)) h4
  · have h5 := value_shift post _ _ (57 * (d - d')) h3
    rw [show (p * 58 + d') * 58 + d + 57 * (d - d') = (p * 58 + d) * 58 + d' by omega, h2] at h5
    exact noticed_text hn (harmless_exchanged post.length hp (d - d') (by omega) (by omega)) (.inr (Option.some.inj h5)) h4

/-- **C148 is false for a character left out**: whichever character of a plain Byron address is missing, `NewAddress` panics: the first byte becomes that of a base address, for which there are too
few bytes. (The decoder returns a slice without room behind its contents; the theorem allows for up to 13 bytes.) -/
theorem C148_left_out (strict : Bool) (b : ByronAddress) (hb : PlainByron b) (pre post spare : Bytes) (c : UInt8)
    (hs : string (.byron b) = .ok (pre ++ c :: post)) (hsp : spare.length ≤ 13) : NewAddress strict (pre ++ post) spare = .panic := by
  obtain ⟨r, e1, e2, e3, -⟩ := plain_text hb
  have e5 : pre ++ c :: post = 65 :: 101 :: r := by
    rw [← e1]
    exact (Res.ok.inj hs).symm
  cases pre with
  | nil =>
    obtain ⟨-, rfl⟩ := List.cons.inj e5
    exact panics_text (m := 42) (d := 37) (by decide) (by decide) (by decide) (by decide) e3 (by rw [e2]; decide +kernel) (by rw [e2]; decide +kernel) (by omega)
  | cons x t =>
    obtain ⟨rfl, e6⟩ := List.cons.inj e5
    change t ++ c :: post = 101 :: r at e6
    show NewAddress strict (65 :: (t ++ post)) spare = .panic
    have hl : (t ++ post).length = 57 := by
      have := congrArg List.length e6
      simp [e2] at this
      simp; omega
    have hb58 : B58Text (t ++ post) := by
      intro y hy
      have hy2 : y ∈ t ++ c :: post := by
        rcases List.mem_append.1 hy with h | h
        · exact List.mem_append_left _ h
        · exact List.mem_append_right _ (List.mem_cons_of_mem _ h)
      rw [e6] at hy2
      rcases List.mem_cons.1 hy2 with rfl | hy2
      · decide
      · exact e3 y hy2
    exact panics_text (m := 42) (d := 9) (by decide) (by decide) (by decide) (by decide) hb58 (by rw [hl]; decide +kernel) (by rw [hl]; decide +kernel) (by omega)

/-- **C148 is false for a character too many**: whatever character is put anywhere behind the first one, `NewAddress` panics. -/
theorem C148_added (strict : Bool) (b : ByronAddress) (hb : PlainByron b) (pre post spare : Bytes) (c : UInt8) (hpre : pre ≠ [])
    (hs : string (.byron b) = .ok (pre ++ post)) (hsp : spare.length ≤ 12) : NewAddress strict (pre ++ c :: post) spare = .panic := by
  obtain ⟨r, e1, e2, e3, -⟩ := plain_text hb
  have e5 : pre ++ post = 65 :: 101 :: r := by
    rw [← e1]
    exact (Res.ok.inj hs).symm
  cases pre with
  | nil => exact absurd rfl hpre
  | cons x t =>
    obtain ⟨rfl, e6⟩ := List.cons.inj e5
    change t ++ post = 101 :: r at e6
    show NewAddress strict (65 :: (t ++ c :: post)) spare = .panic
    have hl : (t ++ c :: post).length = 59 := by
      have := congrArg List.length e6
      simp [e2] at this
      simp; omega
    by_cases hc : c ∈ Base58.alphabet
    · have hb58 : B58Text (t ++ c :: post) := by
        have key : ∀ y ∈ t ++ post, y ∈ Base58.alphabet := by
          rw [e6]
          intro y hy
          rcases List.mem_cons.1 hy with rfl | hy
          · decide
          · exact e3 y hy
        intro y hy
        rcases List.mem_append.1 hy with h | h
        · exact key y (List.mem_append_left _ h)
        · rcases List.mem_cons.1 h with rfl | h
          · exact hc
          · exact key y (List.mem_append_right _ h)
      exact panics_text (m := 43) (d := 9) (by decide) (by decide) (by decide) (by decide) hb58 (by rw [hl]; decide +kernel) (by rw [hl]; decide +kernel) (by omega)
    · exact C103_other_text_panics _ _ _ (not_bech32 65 _ (by decide) (by decide)) fun h => hc (h c (by simp))

/-- A Byron address, and its text with the first character wrong: `6` instead of `A`. -/
def firstWrong : ByronAddress × Bytes × Bytes :=
  (⟨[0x35, 0xf5, 0x50, 0x03, 0x10, 0xfb, 0x5c, 0x3c, 0x97, 0x50, 0xb7, 0x0c, 0x24, 0xdf, 0xc5, 0x44, 0x43, 0xf6, 0x9b, 0x4e, 0x8a, 0xc6, 0xc4, 0x2e, 0xa6, 0x8b, 0x7a, 0x4b], ⟨[], none⟩, 0⟩,
   asc "Ae2tdPwUPEZ2C2rP9sRKdRE1KZzWmKJccjjdkxg6fc5cuKdAG2Sm367uxrn".toList,
   asc "6e2tdPwUPEZ2C2rP9sRKdRE1KZzWmKJccjjdkxg6fc5cuKdAG2Sm367uxrn".toList)

/-- **C148 is false for the first character**: with `6` in place of the first `A`, this Byron address is read as a pointer address. -/
theorem C148_first_unnoticed : PlainByron firstWrong.1 ∧ string (.byron firstWrong.1) = .ok firstWrong.2.1 ∧ firstWrong.2.1 = 65 :: firstWrong.2.2.tail ∧ firstWrong.2.2 = 54 :: firstWrong.2.2.tail ∧
    ∃ n p s, NewAddress true firstWrong.2.2 [] = .ok (.pointer n p s) := by
  refine ⟨⟨by decide, by decide, by decide, by decide +kernel⟩, by decide +kernel, by decide +kernel, by decide +kernel, ?_⟩
  have h : (match NewAddress true firstWrong.2.2 [] with
      | .ok (.pointer _ _ _) => true
      | _ => false) = true := by decide +kernel
  revert h
  cases NewAddress true firstWrong.2.2 [] with
  | ok a =>
    cases a with
    | pointer n p s => exact fun _ => ⟨n, p, s, rfl⟩
    | _ => intro h; cases h
  | err m => intro h; cases h
  | panic => intro h; cases h

/-- A Byron address, and its text with one letter, the thirteenth character, in the wrong case. -/
def caseWrong : Bytes × Bytes :=
  (asc "Ae2tdPwUPEYzMPzRTmvYBQd5DgCB8C46udoAoRSLTVfmf9sZJCSTwJa8SDB".toList,
   asc "Ae2tdPwUPEYzmPzRTmvYBQd5DgCB8C46udoAoRSLTVfmf9sZJCSTwJa8SDB".toList)

/-- **C148 is false for a letter in the wrong case**: the thirteenth character is `m` instead of `M`, and the text is read as another Byron address, with another root hash. So the bound of
`C148_replaced_partial` is exact. -/
theorem C148_case_unnoticed : ∃ b b', PlainByron b ∧ string (.byron b) = .ok caseWrong.1 ∧ caseWrong.1 = caseWrong.1.take 12 ++ 77 :: caseWrong.1.drop 13 ∧ caseWrong.2 = caseWrong.1.take 12 ++ 109 :: caseWrong.1.drop 13 ∧
    (caseWrong.1.drop 13).length = 46 ∧ NewAddress true caseWrong.2 [] = .ok (.byron b') ∧ b'.hash ≠ b.hash := by
  have h : (match NewAddress true caseWrong.1 [], NewAddress true caseWrong.2 [] with
      | .ok (.byron b), .ok (.byron b') => decide ((b.hash.length = 28 ∧ b.attributes = ⟨[], none⟩ ∧ b.tag = 0 ∧ (bytes (.byron b)).length = 43) ∧ string (.byron b) = .ok caseWrong.1 ∧ b'.hash ≠ b.hash)
      | _, _ => false) = true := by decide +kernel
  have h1 : caseWrong.1 = caseWrong.1.take 12 ++ 77 :: caseWrong.1.drop 13 := by decide +kernel
  have h2 : caseWrong.2 = caseWrong.1.take 12 ++ 109 :: caseWrong.1.drop 13 := by decide +kernel
  have h3 : (caseWrong.1.drop 13).length = 46 := by decide +kernel
  revert h
  cases NewAddress true caseWrong.1 [] with
  | err m => intro h; cases h
  | panic => intro h; cases h
  | ok a =>
    cases e : NewAddress true caseWrong.2 [] with
    | err m => cases a <;> (intro h; cases h)
    | panic => cases a <;> (intro h; cases h)
    | ok a' =>
      cases a with
      | byron b =>
        cases a' with
        | byron b' =>
          intro h
          obtain ⟨hp, hs, hh⟩ := of_decide_eq_true h
          exact ⟨b, b', hp, hs, h1, h2, h3, rfl, hh⟩
        | _ => intro h; cases h
      | _ => cases a' <;> (intro h; cases h)

/-- Non-vacuity of C148: a plain address, with a character in its last 46 replaced, two neighbours exchanged, one left out and one added. -/
example : PlainByron firstWrong.1 ∧ string (.byron firstWrong.1) = .ok (firstWrong.2.1.take 13 ++ 50 :: firstWrong.2.1.drop 14) ∧
    string (.byron firstWrong.1) = .ok (firstWrong.2.1.take 15 ++ 80 :: 57 :: firstWrong.2.1.drop 17) ∧ (firstWrong.2.1.drop 14).length ≤ 45 ∧ (firstWrong.2.1.drop 17).length ≤ 43 := by
  refine ⟨C148_first_unnoticed.1, ?_, ?_, by decide +kernel, by decide +kernel⟩ <;> rw [C148_first_unnoticed.2.1] <;> exact congrArg Res.ok (by decide +kernel)

end Cardano.Props
