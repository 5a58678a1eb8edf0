import Verif.Byron.Long
/-!
# What `NewAddress` makes of the text of a long Byron address
-/
set_option autoImplicit false

namespace Cardano.Byron
open Cbor

/-- The bytes of an address: tag, length of the payload, payload, checksum. -/
theorem bytes_split (b : ByronAddress) : bytes b = 0x82 :: 0xd8 :: 0x18 :: (encHead 0x40 (UInt64.ofNat (rawBytes b).length) ++
    (rawBytes b ++ encUint (UInt64.ofNat (Crc32.checksum (rawBytes b)).toNat))) := by
  have : bytes b = encHead 0x80 (UInt64.ofNat 2) ++ (encHead 0xc0 24 ++ encBytes (rawBytes b) ++
      encUint (UInt64.ofNat (Crc32.checksum (rawBytes b)).toNat)) := by
    simp [bytes, encArray, encTag]
  have a1 : encHead 0x80 (UInt64.ofNat 2) = [0x82] := by decide
  have a2 : encHead 0xc0 24 = [0xd8, 0x18] := by decide
  rw [this, a1, a2]
  simp [encBytes]

/-- First four bytes. -/
theorem bytes_head4 (b : ByronAddress) (h1 : 30 ≤ (rawBytes b).length) (h2 : (rawBytes b).length < 2 ^ 32) :
    ∃ hh t, bytes b = 0x82 :: 0xd8 :: 0x18 :: hh :: t ∧ (hh = 0x58 ∨ hh = 0x59 ∨ hh = 0x5a) ∧ 30 ≤ t.length := by
  have hl : (UInt64.ofNat (rawBytes b).length).toNat = (rawBytes b).length := ofNat64 _ (by omega)
  have key : ∀ (h : UInt8) (k : Nat), encHead 0x40 (UInt64.ofNat (rawBytes b).length) = h :: beBytes k (rawBytes b).length →
      (h = 0x58 ∨ h = 0x59 ∨ h = 0x5a) →
      ∃ hh t, bytes b = 0x82 :: 0xd8 :: 0x18 :: hh :: t ∧ (hh = 0x58 ∨ hh = 0x59 ∨ hh = 0x5a) ∧ 30 ≤ t.length := by
    intro h k e hh
    refine ⟨h, beBytes k (rawBytes b).length ++ (rawBytes b ++ encUint (UInt64.ofNat (Crc32.checksum (rawBytes b)).toNat)), ?_, hh, ?_⟩
    · rw [bytes_split, e]; rfl
    · simp only [List.length_append]; omega
  by_cases c1 : (rawBytes b).length < 2 ^ 8
  · refine key 0x58 1 ?_ (.inl rfl)
    unfold encHead
    rw [hl, if_neg (by omega), if_pos c1]; rfl
  by_cases c2 : (rawBytes b).length < 2 ^ 16
  · refine key 0x59 2 ?_ (.inr (.inl rfl))
    unfold encHead
    rw [hl, if_neg (by omega), if_neg c1, if_pos c2]; rfl
  · refine key 0x5a 4 ?_ (.inr (.inr rfl))
    unfold encHead
    rw [hl, if_neg (by omega), if_neg c1, if_neg c2, if_pos h2]; rfl

/-- Up to 2039212 bytes, the text does not look like bech32. -/
theorem long_not_bech32 (b : ByronAddress) (h1 : 30 ≤ (rawBytes b).length) (h2 : (bytes b).length < 2039213) :
    (Addr.hasPrefix (Base58.encode (bytes b)) (asc ['a','d','d','r']) ||
      Addr.hasPrefix (Base58.encode (bytes b)) (asc ['s','t','a','k','e'])) = false := by
  have h3 : (rawBytes b).length < 2 ^ 32 := by
    rw [bytes_split] at h2
    simp only [List.length_cons, List.length_append] at h2
    omega
  obtain ⟨hh, t, e, hhh, ht⟩ := bytes_head4 b h1 h3
  have hk : t.length < 2039209 := by
    rw [e] at h2
    simp only [List.length_cons] at h2
    omega
  obtain ⟨⟨m, g1, g2⟩, ⟨m', g3, g4⟩⟩ := Long.gap t.length ht hk
  have hlead : Base58.leading 0 (bytes b) = 0 := by rw [e]; rfl
  have hval : 0x82d81858 * 256 ^ t.length ≤ beVal (bytes b) ∧ beVal (bytes b) < 0x82d8185b * 256 ^ t.length := by
    rw [e, beVal_cons, beVal_cons, beVal_cons, beVal_cons]
    have ht := beVal_lt t
    have hn : hh.toNat = 0x58 ∨ hh.toNat = 0x59 ∨ hh.toNat = 0x5a := by
      rcases hhh with rfl | rfl | rfl
      · exact .inl rfl
      · exact .inr (.inl rfl)
      · exact .inr (.inr rfl)
    simp only [List.length_cons, Nat.pow_succ]
    have c1 : (0x82 : UInt8).toNat = 0x82 := rfl
    have c2 : (0xd8 : UInt8).toNat = 0xd8 := rfl
    have c3 : (0x18 : UInt8).toNat = 0x18 := rfl
    rw [c1, c2, c3]
    generalize 256 ^ t.length = q at *
    rcases hn with hn | hn | hn <;> rw [hn] <;> omega
  unfold Base58.encode
  rw [hlead, List.replicate_zero, List.nil_append]
  have hds := Base58.digits_lt 58 (by omega) (beVal (bytes b) + 1) (beVal (bytes b))
  rw [Bool.or_eq_false_iff]
  constructor
  · rw [Bool.eq_false_iff]
    intro hp
    unfold Addr.hasPrefix at hp
    rw [beq_iff_eq] at hp
    have := map_prefix _ [33, 36, 36, 49] _ hds (by decide) hp
    have := digits_prefix [33, 36, 36, 49] _ _ this rfl
    exact no_prefix 6561937 _ _ _ _ _ g1 g2 hval this
  · rw [Bool.eq_false_iff]
    intro hp
    unfold Addr.hasPrefix at hp
    rw [beq_iff_eq] at hp
    have := map_prefix _ [50, 51, 33, 43, 37] _ hds (by decide) hp
    have := digits_prefix [50, 51, 33, 43, 37] _ _ this rfl
    exact no_prefix 575889055 _ _ _ _ _ g3 g4 hval this

/-! ### 2039213 bytes -/

/-- The leading base-58 digits of a number are those of its quotient by a power of 58. -/
theorem digits_div : ∀ (m f n : Nat), n < f → 0 < n / 58 ^ m →
    ∃ l, Base58.digits 58 f n = Base58.digits 58 (n / 58 ^ m + 1) (n / 58 ^ m) ++ l
  | 0, f, n, hf, _ => by
    refine ⟨[], ?_⟩
    rw [Nat.pow_zero, Nat.div_one, List.append_nil]
    exact Base58.digits_canon 58 (by omega) _ f n (Base58.digits_lt 58 (by omega) (n + 1) n)
      (Base58.digits_lead 58 (by omega) (n + 1) n (by omega)) (Base58.digits_val 58 (by omega) (n + 1) n (by omega)) hf
  | m + 1, 0, n, hf, _ => absurd hf (by omega)
  | m + 1, f + 1, n, hf, hp => by
    have hn : n ≠ 0 := by rintro rfl; simp at hp
    have hd : n / 58 ^ (m + 1) = n / 58 / 58 ^ m := by rw [Nat.pow_succ, Nat.mul_comm, Nat.div_div_eq_div_mul]
    rw [hd] at hp ⊢
    obtain ⟨l, hl⟩ := digits_div m f (n / 58) (by omega) hp
    refine ⟨l ++ [n % 58], ?_⟩
    conv => lhs; unfold Base58.digits
    rw [if_neg hn, hl, List.append_assoc]

theorem ineq_lo : 380592355 * 58 ^ 2784863 ≤ 0x82d8185a001f1da0 * 256 ^ 2039205 := by decide +kernel
theorem ineq_hi : 0x82d8185a001f1da5 * 256 ^ 2039205 ≤ 380592356 * 58 ^ 2784863 := by decide +kernel

theorem beVal_append (a c : Bytes) : beVal (a ++ c) = beVal a * 256 ^ c.length + beVal c := by
  conv => lhs; unfold beVal
  rw [List.foldl_append, beVal_foldl]; rfl

/-- Length of the checksum on the wire. -/
theorem crc_length (n : Nat) (h : n < 2 ^ 32) : (encUint (UInt64.ofNat n)).length ∈ [1, 2, 3, 5] ∧
    (65536 ≤ n → (encUint (UInt64.ofNat n)).length = 5) := by
  have hl : (UInt64.ofNat n).toNat = n := ofNat64 _ (by omega)
  unfold encUint encHead
  rw [hl]
  split
  · exact ⟨by simp, by omega⟩
  split
  · exact ⟨by simp [beBytes_length], by omega⟩
  split
  · exact ⟨by simp [beBytes_length], by omega⟩
  exact ⟨by simp [beBytes_length], by simp [beBytes_length]⟩

theorem head_large (n : Nat) (h1 : 2 ^ 16 ≤ n) (h2 : n < 2 ^ 32) :
    encHead 0x40 (UInt64.ofNat n) = 0x5a :: beBytes 4 n := by
  have hl : (UInt64.ofNat n).toNat = n := ofNat64 _ (by omega)
  unfold encHead
  rw [hl, if_neg (by omega), if_neg (by omega), if_neg (by omega), if_pos h2]; rfl

/-- Every address with exactly 2039213 bytes has a text that begins with "addrA". -/
theorem long_text (b : ByronAddress) (h : (bytes b).length = 2039213) :
    ∃ l, Base58.encode (bytes b) = asc ['a','d','d','r','A'] ++ l := by
  have hlead : Base58.leading 0 (bytes b) = 0 := by rw [bytes_split]; rfl
  obtain ⟨hc, -⟩ := crc_length (Crc32.checksum (rawBytes b)).toNat (UInt32.toNat_lt _)
  have hlen := h
  rw [bytes_split] at hlen
  simp only [List.length_cons, List.length_append] at hlen
  have hhl := encHead_length_le 0x40 (UInt64.ofNat (rawBytes b).length)
  have hc9 : (encUint (UInt64.ofNat (Crc32.checksum (rawBytes b)).toNat)).length ≤ 9 := encHead_length_le _ _
  rw [head_large _ (by omega) (by omega)] at hlen
  simp only [List.length_cons, beBytes_length] at hlen
  have hrest : (rawBytes b ++ encUint (UInt64.ofNat (Crc32.checksum (rawBytes b)).toNat)).length = 2039205 := by
    rw [List.length_append]; omega
  have hraw : 2039200 ≤ (rawBytes b).length ∧ (rawBytes b).length ≤ 2039204 := by
    simp only [List.mem_cons, List.not_mem_nil, or_false] at hc
    omega
  have hbytes : bytes b = (0x82 :: 0xd8 :: 0x18 :: 0x5a :: beBytes 4 (rawBytes b).length) ++
      (rawBytes b ++ encUint (UInt64.ofNat (Crc32.checksum (rawBytes b)).toNat)) := by
    rw [bytes_split, head_large _ (by omega) (by omega)]; rfl
  have hpre : beVal (0x82 :: 0xd8 :: 0x18 :: 0x5a :: beBytes 4 (rawBytes b).length) =
      0x82d8185a00000000 + (rawBytes b).length := by
    rw [beVal_cons, beVal_cons, beVal_cons, beVal_cons, beVal_beBytes]
    simp only [List.length_cons, beBytes_length]
    have c1 : (0x82 : UInt8).toNat = 0x82 := rfl
    have c2 : (0xd8 : UInt8).toNat = 0xd8 := rfl
    have c3 : (0x18 : UInt8).toNat = 0x18 := rfl
    have c4 : (0x5a : UInt8).toNat = 0x5a := rfl
    rw [c1, c2, c3, c4]
    omega
  have hval := congrArg beVal hbytes
  rw [beVal_append, hpre, hrest] at hval
  have hlt := beVal_lt (rawBytes b ++ encUint (UInt64.ofNat (Crc32.checksum (rawBytes b)).toNat))
  rw [hrest] at hlt
  have i1 := ineq_lo
  have i2 := ineq_hi
  have hq : beVal (bytes b) / 58 ^ 2784863 = 380592355 := by
    have hpow : ∀ m, 0 < 58 ^ m := fun m => Nat.pow_pos (by omega)
    have hpos := hpow 2784863
    generalize (58 ^ 2784863 : Nat) = u at *
    generalize (256 ^ 2039205 : Nat) = v at *
    have a1 : 0x82d8185a001f1da0 * v ≤ (0x82d8185a00000000 + (rawBytes b).length) * v := Nat.mul_le_mul_right _ (by omega)
    have a2 : (0x82d8185a00000000 + (rawBytes b).length + 1) * v ≤ 0x82d8185a001f1da5 * v := Nat.mul_le_mul_right _ (by omega)
    rw [Nat.add_mul _ 1, Nat.one_mul] at a2
    refine Nat.div_eq_of_lt_le ?_ ?_
    · omega
    · rw [Nat.succ_mul]; omega
  obtain ⟨l, hl⟩ := digits_div 2784863 (beVal (bytes b) + 1) (beVal (bytes b)) (by omega) (by rw [hq]; omega)
  rw [hq] at hl
  have hd : Base58.digits 58 (380592355 + 1) 380592355 = [33, 36, 36, 49, 9] :=
    Base58.digits_canon 58 (by omega) _ _ _ (by decide) (by intro d t e; cases e; decide) rfl (by omega)
  rw [hd] at hl
  refine ⟨l.map fun d => Base58.alphabet.getD d 0, ?_⟩
  unfold Base58.encode
  rw [hlead, List.replicate_zero, List.nil_append, hl, List.map_append]
  rfl

/-- Such a text is refused: it is taken for bech32, and has letters of both cases. -/
theorem long_mixed (l : Bytes) : Bech32.Decode (asc ['a','d','d','r','A'] ++ l) = .err "mixed case" := by
  unfold Bech32.Decode
  rw [if_pos]
  constructor
  · intro h
    unfold toLower at h
    rw [List.map_append] at h
    exact absurd (List.append_inj h (by simp)).1 (by decide)
  · intro h
    unfold toUpper at h
    rw [List.map_append] at h
    exact absurd (List.append_inj h (by simp)).1 (by decide)

end Cardano.Byron
