import Verif.Bech32.Polymod
/-!
# Model of `hash/crc32.ChecksumIEEE` (Go standard library; external to `/repo`, called at address/byron.go:55 and 78)
and its error-detection lemma.
-/
set_option autoImplicit false

namespace Cardano.Crc32

/-- `crc32.IEEE`, the reversed polynomial. -/
def poly : UInt32 := 0xedb88320

/-- One round of `simpleMakeTable`: `if crc&1 == 1 { crc = (crc >> 1) ^ poly } else { crc >>= 1 }`. -/
def half (c : UInt32) : UInt32 := if c &&& 1 = 1 then goShr32 c 1 ^^^ poly else goShr32 c 1

/-- `n` rounds. -/
def halfN : Nat → UInt32 → UInt32
  | 0, c => c
  | n + 1, c => halfN n (half c)

/-- `ieeeTable[i]`. -/
def tab (i : UInt8) : UInt32 := halfN 8 i.toUInt32

/-- `simpleUpdate`, one byte: `crc = tab[byte(crc)^v] ^ (crc >> 8)`. -/
def step (c : UInt32) (v : UInt8) : UInt32 := tab (c.toUInt8 ^^^ v) ^^^ goShr32 c 8

/-- `crc32.ChecksumIEEE`. -/
def checksum (data : Bytes) : UInt32 := (data.foldl step (0 ^^^ 0xffffffff)) ^^^ 0xffffffff

open Bech32 (goShr32_xor and_xor_distrib and_one_cases)

theorem half_xor (a b : UInt32) : half (a ^^^ b) = half a ^^^ half b := by
  unfold half
  rw [and_xor_distrib, goShr32_xor]
  rcases and_one_cases a with ha | ha <;> rcases and_one_cases b with hb | hb <;> simp only [ha, hb] <;> simp
  · ac_rfl
  · ac_rfl
  · have : (goShr32 a 1 ^^^ poly) ^^^ (goShr32 b 1 ^^^ poly) = goShr32 a 1 ^^^ goShr32 b 1 ^^^ (poly ^^^ poly) := by ac_rfl
    rw [this]; simp

theorem halfN_xor (n : Nat) : ∀ a b, halfN n (a ^^^ b) = halfN n a ^^^ halfN n b := by
  induction n with
  | zero => intro a b; rfl
  | succ n ih => intro a b; simp only [halfN]; rw [half_xor, ih]

theorem half_eq_zero (c : UInt32) (h : half c = 0) : c = 0 := by
  unfold half at h
  have hc := UInt32.toNat_lt c
  split at h
  · exfalso
    have h2 := UInt32.xor_eq_zero_iff.1 h
    have h3 := congrArg UInt32.toNat h2
    rw [goShr32_toNat] at h3
    have : poly.toNat = 3988292384 := by decide
    omega
  · rename_i h1
    have h0 : c &&& 1 = 0 := (and_one_cases c).resolve_right h1
    have e0 : c.toNat % 2 = 0 := by
      have := congrArg UInt32.toNat h0
      rw [UInt32.toNat_and] at this
      have e : (1 : UInt32).toNat = 2 ^ 1 - 1 := rfl
      rw [e, Nat.and_two_pow_sub_one_eq_mod] at this
      simpa using this
    have e1 : c.toNat / 2 = 0 := by
      have := congrArg UInt32.toNat h
      rw [goShr32_toNat] at this
      simpa using this
    apply UInt32.toNat_inj.1
    have : c.toNat = 0 := by omega
    rw [this]; rfl

theorem halfN_eq_zero (n : Nat) : ∀ c, halfN n c = 0 → c = 0 := by
  induction n with
  | zero => intro c h; exact h
  | succ n ih => intro c h; exact half_eq_zero c (ih _ h)

/-- Rounds on a number whose low `n` bits are clear just shift. -/
theorem halfN_shift (n : Nat) : ∀ c : UInt32, c.toNat % 2 ^ n = 0 → (halfN n c).toNat = c.toNat / 2 ^ n := by
  induction n with
  | zero => intro c _; simp [halfN]
  | succ n ih =>
    intro c h
    simp only [halfN]
    have h2 : c.toNat % 2 = 0 := by
      have : (2:Nat) ∣ 2 ^ (n+1) := ⟨2 ^ n, by rw [Nat.pow_succ, Nat.mul_comm]⟩
      rw [← Nat.mod_mod_of_dvd _ this, h]
    have hh : half c = goShr32 c 1 := by
      unfold half
      rw [if_neg]
      intro h1
      have := congrArg UInt32.toNat h1
      rw [UInt32.toNat_and] at this
      have e : (1 : UInt32).toNat = 2 ^ 1 - 1 := rfl
      rw [e, Nat.and_two_pow_sub_one_eq_mod] at this
      omega
    have hs : (half c).toNat = c.toNat / 2 := by rw [hh, goShr32_toNat]
    rw [ih (half c), hs, Nat.div_div_eq_div_mul, Nat.pow_succ, Nat.mul_comm]
    rw [hs]
    have h3 := h
    rw [Nat.pow_succ, Nat.mul_comm, Nat.mod_mul] at h3
    omega

theorem toUInt8_toUInt32 (c : UInt32) : c.toUInt8.toUInt32.toNat = c.toNat % 256 := by simp

/-- The table-driven step is eight rounds on `c ^ v`. -/
theorem step_eq (c : UInt32) (v : UInt8) : step c v = halfN 8 (c ^^^ v.toUInt32) := by
  -- split c into its low byte and the rest
  have hsplit : c = c.toUInt8.toUInt32 ^^^ (c ^^^ c.toUInt8.toUInt32) := by
    rw [UInt32.xor_comm c, ← UInt32.xor_assoc]; simp
  have hhi : (c ^^^ c.toUInt8.toUInt32).toNat % 2 ^ 8 = 0 := by
    rw [UInt32.toNat_xor, Nat.xor_mod_two_pow, toUInt8_toUInt32]
    have : c.toNat % 256 % 2 ^ 8 = c.toNat % 2 ^ 8 := by omega
    rw [this]; simp
  have hhi2 : (c ^^^ c.toUInt8.toUInt32).toNat / 2 ^ 8 = c.toNat / 2 ^ 8 := by
    rw [UInt32.toNat_xor, Nat.xor_div_two_pow, toUInt8_toUInt32]
    have : c.toNat % 256 / 2 ^ 8 = 0 := by omega
    rw [this]; simp
  have e1 : halfN 8 (c ^^^ c.toUInt8.toUInt32) = goShr32 c 8 := by
    apply UInt32.toNat_inj.1
    rw [halfN_shift 8 _ hhi, hhi2, goShr32_toNat]
  have e2 : c ^^^ v.toUInt32 = (c.toUInt8 ^^^ v).toUInt32 ^^^ (c ^^^ c.toUInt8.toUInt32) := by
    conv => lhs; rw [hsplit]
    rw [UInt8.toUInt32_xor]; ac_rfl
  rw [e2, halfN_xor, e1]
  rfl

theorem step_xor (a b : UInt32) (u v : UInt8) : step (a ^^^ b) (u ^^^ v) = step a u ^^^ step b v := by
  rw [step_eq, step_eq, step_eq, ← halfN_xor]
  congr 1
  rw [UInt8.toUInt32_xor]; ac_rfl

theorem foldl_xor (xs : Bytes) : ∀ (ys : Bytes) (a b : UInt32), xs.length = ys.length →
    (List.zipWith (· ^^^ ·) xs ys).foldl step (a ^^^ b) = xs.foldl step a ^^^ ys.foldl step b := by
  induction xs with
  | nil => intro ys a b h; cases ys <;> simp_all
  | cons x xs ih =>
    intro ys a b h
    cases ys with
    | nil => simp at h
    | cons y ys =>
      simp only [List.zipWith_cons_cons, List.foldl_cons]
      rw [step_xor]
      exact ih ys _ _ (by simpa using h)

theorem checksum_eq_iff (xs ys : Bytes) (h : xs.length = ys.length) :
    checksum xs = checksum ys ↔ (List.zipWith (· ^^^ ·) xs ys).foldl step 0 = 0 := by
  have := foldl_xor xs ys (0 ^^^ 0xffffffff) (0 ^^^ 0xffffffff) h
  unfold checksum
  rw [UInt32.xor_left_inj]
  rw [UInt32.xor_self] at this
  rw [this, UInt32.xor_eq_zero_iff]

/-! ### Bit-serial view -/

/-- Bits of a byte, least significant first (the order in which CRC-32 consumes them). -/
def byteBits (v : UInt8) : List Bool := (List.range 8).map v.toNat.testBit

/-- One bit. -/
def bitStep (c : UInt32) (b : Bool) : UInt32 := half (c ^^^ (if b then 1 else 0))

/-- Little-endian value of a bit list. -/
def bitVal : List Bool → Nat
  | [] => 0
  | b :: l => b.toNat + 2 * bitVal l

theorem bitVal_lt (l : List Bool) : bitVal l < 2 ^ l.length := by
  induction l with
  | nil => simp [bitVal]
  | cons b l ih => simp only [bitVal, List.length_cons, Nat.pow_succ]; cases b <;> simp <;> omega

theorem bitFold (l : List Bool) : ∀ (c : UInt32), l.length ≤ 32 →
    l.foldl bitStep c = halfN l.length (c ^^^ UInt32.ofNat (bitVal l)) := by
  induction l with
  | nil => intro c _; simp [bitVal, halfN]
  | cons b l ih =>
    intro c h
    have hl := bitVal_lt l
    have hle : (2:Nat) ^ l.length ≤ 2 ^ 31 := Nat.pow_le_pow_right (by omega) (by simpa using h)
    simp only [List.foldl_cons, List.length_cons, halfN]
    rw [ih _ (by simp at h; omega)]
    congr 1
    have hsum : UInt32.ofNat (bitVal (b :: l)) = (if b then 1 else 0) ^^^ UInt32.ofNat (2 * bitVal l) := by
      apply UInt32.toNat_inj.1
      have e1 : (UInt32.ofNat (bitVal (b :: l))).toNat = bitVal (b :: l) := by
        rw [UInt32.toNat_ofNat', Nat.mod_eq_of_lt]
        simp only [bitVal]; cases b <;> simp <;> omega
      have e2 : (UInt32.ofNat (2 * bitVal l)).toNat = 2 * bitVal l := by
        rw [UInt32.toNat_ofNat', Nat.mod_eq_of_lt (by omega)]
      rw [e1, UInt32.toNat_xor, e2]
      simp only [bitVal]
      cases b
      · simp
      · simp only [if_true, Bool.toNat_true]
        have e3 : (1 : UInt32).toNat = 1 := rfl
        rw [e3]
        have h1 : (1 ^^^ 2 * bitVal l) / 2 ^ 1 = bitVal l := by
          rw [Nat.xor_div_two_pow]; simp
        have h2 : (1 ^^^ 2 * bitVal l) % 2 ^ 1 = 1 := by
          rw [Nat.xor_mod_two_pow]; simp
        omega
    have hhalf : half (UInt32.ofNat (2 * bitVal l)) = UInt32.ofNat (bitVal l) := by
      have e2 : (UInt32.ofNat (2 * bitVal l)).toNat = 2 * bitVal l := by
        rw [UInt32.toNat_ofNat', Nat.mod_eq_of_lt (by omega)]
      have := halfN_shift 1 (UInt32.ofNat (2 * bitVal l)) (by rw [e2]; omega)
      apply UInt32.toNat_inj.1
      have e3 : halfN 1 (UInt32.ofNat (2 * bitVal l)) = half (UInt32.ofNat (2 * bitVal l)) := rfl
      rw [← e3, this, e2, UInt32.toNat_ofNat', Nat.mod_eq_of_lt (by omega)]; omega
    rw [hsum, ← UInt32.xor_assoc, half_xor, hhalf]
    rfl

theorem step_bits (c : UInt32) (v : UInt8) : step c v = (byteBits v).foldl bitStep c := by
  rw [step_eq, bitFold _ _ (by simp [byteBits])]
  have hl : (byteBits v).length = 8 := by simp [byteBits]
  have : ∀ v : UInt8, v.toUInt32 = UInt32.ofNat (bitVal (byteBits v)) := forall_byte (by decide +kernel)
  rw [hl, ← this v]

/-- All bits of a byte string in CRC order. -/
def allBits (xs : Bytes) : List Bool := xs.flatMap byteBits

theorem foldl_bits (xs : Bytes) : ∀ c, xs.foldl step c = (allBits xs).foldl bitStep c := by
  induction xs with
  | nil => intro c; rfl
  | cons x xs ih =>
    intro c
    simp only [List.foldl_cons, allBits, List.flatMap_cons, List.foldl_append]
    rw [step_bits, ih]; rfl

theorem zeros_zero (n : Nat) : (List.replicate n false).foldl bitStep 0 = 0 := by
  induction n with
  | zero => rfl
  | succ n ih => rw [List.replicate_succ, List.foldl_cons]; exact ih

theorem zeros_eq (n : Nat) : ∀ c, (List.replicate n false).foldl bitStep c = halfN n c := by
  induction n with
  | zero => intro c; rfl
  | succ n ih => intro c; rw [List.replicate_succ, List.foldl_cons, ih]; simp [halfN, bitStep]

/-- A nonzero bit string confined to 32 consecutive positions is not annihilated. -/
theorem bit_burst (l : List Bool) (i : Nat)
    (hout : ∀ j (hj : j < l.length), j < i ∨ i + 32 ≤ j → l[j] = false)
    (h : l.foldl bitStep 0 = 0) : ∀ b ∈ l, b = false := by
  have hsplit : l = List.replicate (min i l.length) false ++ ((l.drop i).take 32 ++ List.replicate (l.length - (i+32)) false) := by
    apply List.ext_getElem?
    intro j
    by_cases hj : j < l.length
    · by_cases h1 : j < i
      · rw [List.getElem?_append_left (by simp; omega), List.getElem?_replicate]
        rw [if_pos (by omega), List.getElem?_eq_getElem hj, hout j hj (.inl h1)]
      · have hm : min i l.length = i := by omega
        rw [List.getElem?_append_right (by simp; omega)]
        simp only [List.length_replicate, hm]
        by_cases h2 : j < i + 32
        · rw [List.getElem?_append_left (by simp; omega), List.getElem?_take, if_pos (by omega), List.getElem?_drop]
          congr 1; omega
        · rw [List.getElem?_append_right (by simp; omega), List.getElem?_replicate]
          simp only [List.length_take, List.length_drop]
          rw [if_pos (by omega), List.getElem?_eq_getElem hj, hout j hj (.inr (by omega))]
    · have : l[j]? = none := List.getElem?_eq_none (by omega)
      rw [this]; symm
      apply List.getElem?_eq_none
      simp; omega
  generalize hm : (l.drop i).take 32 = m at hsplit
  have hmlen : m.length ≤ 32 := by rw [← hm]; simp; omega
  rw [hsplit, List.foldl_append, zeros_zero, List.foldl_append, zeros_eq] at h
  have h1 := halfN_eq_zero _ _ h
  rw [bitFold m 0 hmlen] at h1
  have h2 := halfN_eq_zero _ _ h1
  simp only [UInt32.zero_xor] at h2
  have hlt := bitVal_lt m
  have hle : (2:Nat) ^ m.length ≤ 2 ^ 32 := Nat.pow_le_pow_right (by omega) hmlen
  have h3 : bitVal m = 0 := by
    have := congrArg UInt32.toNat h2
    rw [UInt32.toNat_ofNat', Nat.mod_eq_of_lt (by omega)] at this
    simpa using this
  have h4 : ∀ m : List Bool, bitVal m = 0 → ∀ b ∈ m, b = false := by
    intro m
    induction m with
    | nil => simp
    | cons x m ih =>
      intro h b hb
      simp only [bitVal] at h
      rcases List.mem_cons.1 hb with rfl | hb
      · cases b <;> simp at h ⊢
      · exact ih (by omega) b hb
  intro b hb
  rw [hsplit] at hb
  rcases List.mem_append.1 hb with h | h
  · exact (List.mem_replicate.1 h).2
  · rcases List.mem_append.1 h with h | h
    · exact h4 m h3 b h
    · exact (List.mem_replicate.1 h).2

end Cardano.Crc32
