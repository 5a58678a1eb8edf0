import Verif.Props.Byron
import Mathlib.RingTheory.AdjoinRoot
import Mathlib.Algebra.Field.ZMod
import Mathlib.Tactic.ComputeDegree
import Mathlib.Algebra.CharP.Two
import Mathlib.Tactic.LinearCombination
import Mathlib.GroupTheory.OrderOfElement
import Mathlib.Tactic.NormNum.Prime
/-!
# Property C66: the Byron checksum is CRC-32

The specification is polynomial division over GF(2) and mentions no register, table or shift.
-/
set_option autoImplicit false

namespace Cardano.Props
open Polynomial

/-- The generator of CRC-32 (IEEE 802.3). -/
noncomputable def crcG : Polynomial (ZMod 2) :=
  X ^ 32 + X ^ 26 + X ^ 23 + X ^ 22 + X ^ 16 + X ^ 12 + X ^ 11 + X ^ 10 + X ^ 8 + X ^ 7 + X ^ 5 + X ^ 4 + X ^ 2 + X + 1

/-- The polynomial whose coefficients are the given bits, highest degree first. -/
noncomputable def polyOf (l : List Bool) : Polynomial (ZMod 2) := l.foldl (fun p b => p * X + (if b then 1 else 0)) 0

/-- The bits of a byte string in transmission order: bytes in order, each least significant bit first. -/
def msgBits (data : Bytes) : List Bool := data.flatMap fun x => (List.range 8).map fun i => x.toNat.testBit i

/-- IEEE 802.3: `c` is the CRC-32 of `data`. The message polynomial times `x^32`, with the first 32 bits complemented (the all-ones
polynomial added at the front), leaves as remainder the complement of `c`, the least significant bit of `c` being the coefficient of `x^31`. -/
def IsCrc32 (data : Bytes) (c : Nat) : Prop :=
  c < 2 ^ 32 ∧
  crcG ∣ X ^ 32 * polyOf (msgBits data) + X ^ (8 * data.length) * polyOf (List.replicate 32 true)
    + polyOf ((List.range 32).map fun i => ! c.testBit i)

/-! ### Proof -/

theorem msgBits_eq (data : Bytes) : msgBits data = Crc32.allBits data := rfl

theorem polyOf_snoc (l : List Bool) (b : Bool) : polyOf (l ++ [b]) = polyOf l * X + (if b then 1 else 0) := by
  simp [polyOf]

theorem polyOf_range (n : Nat) (f : Nat → Bool) :
    polyOf ((List.range n).map f) = ∑ i ∈ Finset.range n, (if f i then 1 else 0) * X ^ (n - 1 - i) := by
  induction n with
  | zero => simp [polyOf]
  | succ n ih =>
    rw [List.range_succ, List.map_append, List.map_cons, List.map_nil, polyOf_snoc, ih, Finset.sum_range_succ, Finset.sum_mul]
    congr 1
    · apply Finset.sum_congr rfl
      intro i hi
      have : i < n := Finset.mem_range.1 hi
      rw [mul_assoc, ← pow_succ]
      congr 2; omega
    · simp

/-- The register as a polynomial. -/
noncomputable def regP (c : UInt32) : Polynomial (ZMod 2) := polyOf ((List.range 32).map fun i => c.toNat.testBit i)

theorem two_zero : (2 : Polynomial (ZMod 2)) = 0 := CharTwo.two_eq_zero

theorem regP_xor (a b : UInt32) : regP (a ^^^ b) = regP a + regP b := by
  unfold regP
  rw [polyOf_range, polyOf_range, polyOf_range, ← Finset.sum_add_distrib]
  apply Finset.sum_congr rfl
  intro i _
  rw [UInt32.toNat_xor, Nat.testBit_xor]
  cases a.toNat.testBit i <;> cases b.toNat.testBit i <;> simp
  rw [← two_mul, two_zero, zero_mul]

theorem regP_poly : regP Crc32.poly + X ^ 32 = crcG := by
  unfold regP
  rw [polyOf_range]
  have e : Crc32.poly.toNat = 3988292384 := by decide
  rw [e]
  have hb : ∀ i, Nat.testBit 3988292384 i = decide (i ∈ [5, 8, 9, 15, 19, 20, 21, 23, 24, 26, 27, 29, 30, 31]) := by
    intro i
    by_cases hi : i < 32
    · have : ∀ i : Fin 32, Nat.testBit 3988292384 i.val = decide (i.val ∈ [5, 8, 9, 15, 19, 20, 21, 23, 24, 26, 27, 29, 30, 31]) := by
        decide +kernel
      exact this ⟨i, hi⟩
    · rw [Nat.testBit_lt_two_pow (Nat.lt_of_lt_of_le (by norm_num : 3988292384 < 2 ^ 32) (Nat.pow_le_pow_right (by omega) (by omega)))]
      symm
      rw [decide_eq_false_iff_not]
      intro h
      simp at h
      omega
  simp only [hb]
  simp [Finset.sum_range_succ, crcG]
  ring

theorem and_one_iff (c : UInt32) : c &&& 1 = 1 ↔ c.toNat.testBit 0 = true := by
  rw [← UInt32.toNat_inj, UInt32.toNat_and]
  have e : (1 : UInt32).toNat = 1 := rfl
  rw [e, Nat.and_one_is_mod, Nat.testBit_zero]
  simp

theorem regP_shift (c : UInt32) : X * regP c = (if c.toNat.testBit 0 then X ^ 32 else 0) + regP (goShr32 c 1) := by
  unfold regP
  rw [polyOf_range, polyOf_range, Finset.mul_sum, Finset.sum_range_succ' _ 31, Finset.sum_range_succ _ 31, add_comm]
  have h32 : (goShr32 c 1).toNat.testBit 31 = false := by
    apply Nat.testBit_lt_two_pow
    rw [goShr32_toNat]
    have := UInt32.toNat_lt c
    omega
  rw [h32]
  refine congrArg₂ (· + ·) ?_ ?_
  · cases c.toNat.testBit 0
    · simp only [Bool.false_eq_true, if_false, zero_mul, mul_zero]
    · simp only [if_true, one_mul, Nat.sub_zero]
      rw [← pow_succ']
  · simp only [Bool.false_eq_true, if_false, zero_mul, add_zero]
    apply Finset.sum_congr rfl
    intro i hi
    have : i < 31 := Finset.mem_range.1 hi
    rw [goShr32_toNat, Nat.testBit_div_two_pow, mul_left_comm, ← pow_succ']
    congr 2
    omega

theorem half_dvd (c : UInt32) : crcG ∣ regP (Crc32.half c) + X * regP c := by
  unfold Crc32.half
  rw [regP_shift]
  by_cases h : c.toNat.testBit 0 = true
  · rw [if_pos ((and_one_iff c).2 h), if_pos h, regP_xor, ← regP_poly]
    exact ⟨1, by linear_combination regP (goShr32 c 1) * two_zero⟩
  · rw [if_neg (fun hh => h ((and_one_iff c).1 hh)), if_neg h]
    exact ⟨0, by linear_combination regP (goShr32 c 1) * two_zero⟩

theorem polyOf_cons (b : Bool) (l : List Bool) : polyOf (b :: l) = (if b then X ^ l.length else 0) + polyOf l := by
  have key : ∀ (l : List Bool) (p : Polynomial (ZMod 2)), l.foldl (fun p b => p * X + (if b then 1 else 0)) p = p * X ^ l.length + polyOf l := by
    intro l
    induction l with
    | nil => intro p; simp [polyOf]
    | cons b l ih =>
      intro p
      unfold polyOf
      rw [List.foldl_cons, List.foldl_cons, ih, ih (0 * X + _)]
      rw [List.length_cons]
      ring
  unfold polyOf
  rw [List.foldl_cons, key]
  cases b <;> simp [polyOf]

theorem polyOf_zeros (n : Nat) : polyOf (List.replicate n false) = 0 := by
  induction n with
  | zero => rfl
  | succ n ih => rw [List.replicate_succ, polyOf_cons, ih]; simp

theorem regP_one : regP 1 = X ^ 31 := by
  have : (List.range 32).map (fun i => (1 : UInt32).toNat.testBit i) = true :: List.replicate 31 false := by decide
  unfold regP
  rw [this, polyOf_cons, polyOf_zeros]; simp

theorem bitStep_dvd (c : UInt32) (b : Bool) : crcG ∣ regP (Crc32.bitStep c b) + (X * regP c + (if b then X ^ 32 else 0)) := by
  unfold Crc32.bitStep
  obtain ⟨q, hq⟩ := half_dvd (c ^^^ if b then 1 else 0)
  refine ⟨q, ?_⟩
  rw [← hq, regP_xor]
  cases b
  · have : regP 0 = 0 := by unfold regP; rw [polyOf_range]; simp
    simp [this]
  · simp only [if_true, regP_one]; ring

theorem fold_dvd (l : List Bool) : ∀ c, crcG ∣ regP (l.foldl Crc32.bitStep c) + (X ^ l.length * regP c + X ^ 32 * polyOf l) := by
  induction l with
  | nil => intro c; exact ⟨0, by simp [polyOf]; linear_combination regP c * two_zero⟩
  | cons b l ih =>
    intro c
    obtain ⟨q, hq⟩ := ih (Crc32.bitStep c b)
    obtain ⟨r, hr⟩ := bitStep_dvd c b
    refine ⟨q + X ^ l.length * r, ?_⟩
    rw [List.foldl_cons, polyOf_cons, List.length_cons]
    cases b
    · simp only [Bool.false_eq_true, if_false, add_zero, zero_add] at hr ⊢
      linear_combination hq + X ^ l.length * hr - X ^ l.length * regP (Crc32.bitStep c false) * two_zero
    · simp only [if_true] at hr ⊢
      linear_combination hq + X ^ l.length * hr - X ^ l.length * regP (Crc32.bitStep c true) * two_zero

theorem regP_degree (c : UInt32) : (regP c).degree < 32 := by
  unfold regP
  rw [polyOf_range]
  refine lt_of_le_of_lt (degree_sum_le _ _) ?_
  rw [Finset.sup_lt_iff (by decide)]
  intro i hi
  refine lt_of_le_of_lt (degree_mul_le _ _) ?_
  cases c.toNat.testBit i
  · simp only [Bool.false_eq_true, if_false, degree_zero, WithBot.bot_add]
    exact WithBot.bot_lt_coe 32
  · simp only [if_true, degree_one, degree_X_pow, zero_add]
    exact_mod_cast (by omega : 32 - 1 - i < 32)

theorem crcG_degree : crcG.degree = 32 := by
  unfold crcG
  compute_degree!

theorem regP_inj (a b : UInt32) (h : crcG ∣ regP a + regP b) : a = b := by
  rw [← regP_xor] at h
  have h0 := eq_zero_of_dvd_of_degree_lt h (by rw [crcG_degree]; exact regP_degree _)
  rw [← UInt32.xor_eq_zero_iff]
  apply UInt32.toNat_inj.1
  apply Nat.eq_of_testBit_eq
  intro i
  have e0 : (0 : UInt32).toNat = 0 := rfl
  rw [e0, Nat.zero_testBit]
  by_cases hi : i < 32
  · unfold regP at h0
    rw [polyOf_range] at h0
    have h1 := congrArg (fun p => coeff p (31 - i)) h0
    simp only [finsetSum_coeff, coeff_zero] at h1
    rw [Finset.sum_eq_single i] at h1
    · cases hb : (a ^^^ b).toNat.testBit i
      · rfl
      · rw [hb] at h1; simp at h1
    · intro j hj hji
      have : j < 32 := Finset.mem_range.1 hj
      cases (a ^^^ b).toNat.testBit j
      · simp
      · simp only [if_true, one_mul, coeff_X_pow]
        rw [if_neg (by omega)]
    · intro hn; exact absurd (Finset.mem_range.2 hi) hn
  · exact Nat.testBit_lt_two_pow (Nat.lt_of_lt_of_le (UInt32.toNat_lt _) (Nat.pow_le_pow_right (by omega) (by omega)))

theorem msgBits_length (data : Bytes) : (msgBits data).length = 8 * data.length := by
  induction data with
  | nil => rfl
  | cons x xs ih =>
    have : msgBits (x :: xs) = ((List.range 8).map fun i => x.toNat.testBit i) ++ msgBits xs := rfl
    rw [this, List.length_append, ih]; simp; omega

theorem regP_ones : regP 0xffffffff = polyOf (List.replicate 32 true) := by
  have : (List.range 32).map (fun i => (0xffffffff : UInt32).toNat.testBit i) = List.replicate 32 true := by decide
  unfold regP
  rw [this]

theorem regP_not (c : UInt32) : regP (c ^^^ 0xffffffff) = polyOf ((List.range 32).map fun i => ! c.toNat.testBit i) := by
  unfold regP
  congr 1
  apply List.map_congr_left
  intro i hi
  have hi := List.mem_range.1 hi
  rw [UInt32.toNat_xor, Nat.testBit_xor]
  have : ∀ i : Fin 32, (0xffffffff : UInt32).toNat.testBit i.val = true := by decide
  rw [this ⟨i, hi⟩, Bool.xor_true]

theorem checksum_iff (data : Bytes) (c : Nat) : (Crc32.checksum data).toNat = c ↔ IsCrc32 data c := by
  have main := fold_dvd (msgBits data) (0 ^^^ 0xffffffff)
  rw [msgBits_eq, ← Crc32.foldl_bits, ← msgBits_eq, msgBits_length] at main
  have e0 : regP (0 ^^^ 0xffffffff) = polyOf (List.replicate 32 true) := by rw [UInt32.zero_xor, regP_ones]
  rw [e0] at main
  generalize hr : data.foldl Crc32.step (0 ^^^ 0xffffffff) = r at main
  have hc : Crc32.checksum data = r ^^^ 0xffffffff := by unfold Crc32.checksum; rw [hr]
  constructor
  · rintro rfl
    refine ⟨UInt32.toNat_lt _, ?_⟩
    rw [← regP_not, hc, UInt32.xor_assoc, UInt32.xor_self, UInt32.xor_zero]
    convert main using 1
    ring
  · rintro ⟨hlt, hd⟩
    have hcn : (UInt32.ofNat c).toNat = c := by rw [UInt32.toNat_ofNat', Nat.mod_eq_of_lt hlt]
    rw [← hcn, ← regP_not] at hd
    have h3 := dvd_add main hd
    have h4 : crcG ∣ regP r + regP (UInt32.ofNat c ^^^ 0xffffffff) := by
      convert h3 using 1
      linear_combination -(X ^ 32 * polyOf (msgBits data) + X ^ (8 * data.length) * polyOf (List.replicate 32 true)) * two_zero
    have h5 := regP_inj _ _ h4
    rw [hc, h5, UInt32.xor_assoc, UInt32.xor_self, UInt32.xor_zero, hcn]

/-! ### The order of `x` modulo the generator -/

theorem regP_zero : regP 0 = 0 := by
  have : (List.range 32).map (fun i => (0 : UInt32).toNat.testBit i) = List.replicate 32 false := by decide
  unfold regP
  rw [this, polyOf_zeros]

/-- The residue class of a register. -/
noncomputable def cls (c : UInt32) : AdjoinRoot crcG := AdjoinRoot.mk crcG (regP c)

theorem cls_xor (a b : UInt32) : cls (a ^^^ b) = cls a + cls b := by unfold cls; rw [regP_xor, map_add]

theorem cls_half (c : UInt32) : cls (Crc32.half c) = AdjoinRoot.root crcG * cls c := by
  have h := AdjoinRoot.mk_eq_zero.2 (half_dvd c)
  rw [map_add, map_mul, AdjoinRoot.mk_X] at h
  have h2 : (2 : AdjoinRoot crcG) = 0 := by
    have := congrArg (AdjoinRoot.mk crcG) two_zero
    rwa [map_ofNat, map_zero] at this
  unfold cls
  linear_combination h - AdjoinRoot.root crcG * (AdjoinRoot.mk crcG) (regP c) * h2

/-- Evaluates the first argument before going on (only for the kernel's sake). -/
def force {α : Type} (c : UInt32) (k : UInt32 → α) : α :=
  Nat.rec (motive := fun _ => α) (k 0) (fun m _ => k (UInt32.ofNat (m + 1))) c.toNat

theorem force_eq {α : Type} (c : UInt32) (k : UInt32 → α) : force c k = k c := by
  have key : ∀ n : Nat, Nat.rec (motive := fun _ => α) (k 0) (fun m _ => k (UInt32.ofNat (m + 1))) n = k (UInt32.ofNat n) := by
    intro n; cases n <;> rfl
  unfold force
  rw [key, UInt32.ofNat_toNat]

/-- Product of two registers, Horner's rule over the bits of the first. -/
def mulBits (b : UInt32) : List Bool → UInt32 → UInt32
  | [], r => r
  | x :: l, r => force (Crc32.half r ^^^ if x then b else 0) fun q => mulBits b l q

def mulR (a b : UInt32) : UInt32 := mulBits b ((List.range 32).map fun i => a.toNat.testBit i) 0

theorem cls_mulBits (b : UInt32) (l : List Bool) : ∀ r,
    cls (mulBits b l r) = AdjoinRoot.root crcG ^ l.length * cls r + AdjoinRoot.mk crcG (polyOf l) * cls b := by
  induction l with
  | nil => intro r; simp [mulBits, polyOf]
  | cons x l ih =>
    intro r
    rw [mulBits, force_eq, ih, polyOf_cons, cls_xor, cls_half, List.length_cons, map_add]
    cases x
    · have : cls 0 = 0 := by unfold cls; rw [regP_zero, map_zero]
      simp only [Bool.false_eq_true, if_false, map_zero, this]; ring
    · simp only [if_true, map_pow, AdjoinRoot.mk_X]; ring

theorem cls_mulR (a b : UInt32) : cls (mulR a b) = cls a * cls b := by
  have h0 : cls 0 = 0 := by unfold cls; rw [regP_zero, map_zero]
  unfold mulR
  rw [cls_mulBits, h0, mul_zero, zero_add]; rfl

/-- Power by squaring, exponent bits most significant first. -/
def powBits : List Bool → UInt32 → UInt32
  | [], r => r
  | x :: l, r => force (mulR r r) fun q => powBits l (if x then Crc32.half q else q)

def bitsVal (l : List Bool) (n : Nat) : Nat := l.foldl (fun a b => 2 * a + b.toNat) n

theorem cls_powBits (l : List Bool) : ∀ r n, cls r = AdjoinRoot.root crcG ^ n → cls (powBits l r) = AdjoinRoot.root crcG ^ bitsVal l n := by
  induction l with
  | nil => intro r n h; exact h
  | cons x l ih =>
    intro r n h
    rw [powBits, force_eq]
    show _ = AdjoinRoot.root crcG ^ bitsVal l (2 * n + x.toNat)
    apply ih
    cases x
    · simp only [Bool.false_eq_true, if_false, cls_mulR, h, Bool.toNat_false]; ring
    · simp only [if_true, cls_half, cls_mulR, h, Bool.toNat_true]; ring

theorem regP_top : regP 0x80000000 = 1 := by
  have : (List.range 32).map (fun i => (0x80000000 : UInt32).toNat.testBit i) = List.replicate 31 false ++ [true] := by decide
  unfold regP
  rw [this, polyOf_snoc, polyOf_zeros]; simp

theorem cls_top : cls 0x80000000 = 1 := by unfold cls; rw [regP_top, map_one]

theorem cls_inj (a b : UInt32) (h : cls a = cls b) : a = b := by
  unfold cls at h
  rw [← sub_eq_zero, ← map_sub, AdjoinRoot.mk_eq_zero] at h
  apply regP_inj
  convert h using 1
  linear_combination regP b * two_zero

theorem root_pow (l : List Bool) (n : Nat) (h : bitsVal l 0 = n) : cls (powBits l 0x80000000) = AdjoinRoot.root crcG ^ n := by
  rw [cls_powBits l _ 0 (by rw [cls_top, pow_zero]), h]

/-- Binary digits, most significant first. -/
def toBits (n : Nat) : List Bool := ((List.range 32).map fun i => n.testBit (31 - i))

theorem toBits_val (n : Nat) (h : n < 2 ^ 32) : bitsVal (toBits n) 0 = n := by
  have key : ∀ k, k ≤ 32 → bitsVal ((List.range k).map fun i => n.testBit (31 - i)) 0 = n / 2 ^ (32 - k) := by
    intro k
    induction k with
    | zero => intro _; simp [bitsVal]; omega
    | succ k ih =>
      intro hk
      have := ih (by omega)
      unfold bitsVal at this ⊢
      rw [List.range_succ, List.map_append, List.foldl_append, this]
      simp only [List.map_cons, List.map_nil, List.foldl_cons, List.foldl_nil]
      have e : 32 - k = (31 - k) + 1 := by omega
      have e2 : 32 - (k + 1) = 31 - k := by omega
      rw [e2, e, pow_succ, ← Nat.div_div_eq_div_mul, Nat.testBit_eq_decide_div_mod_eq]
      generalize n / 2 ^ (31 - k) = m
      rcases Nat.mod_two_eq_zero_or_one m with h | h <;> simp [h] <;> omega
  have := key 32 le_rfl
  rw [Nat.sub_self, pow_zero, Nat.div_one] at this
  exact this

theorem root_pow' (n : Nat) (h : n < 2 ^ 32) : cls (powBits (toBits n) 0x80000000) = AdjoinRoot.root crcG ^ n :=
  root_pow _ _ (toBits_val n h)

theorem root_order : orderOf (AdjoinRoot.root crcG) = 2 ^ 32 - 1 := by
  have ne : ∀ n, n < 2 ^ 32 → powBits (toBits n) 0x80000000 ≠ 0x80000000 → AdjoinRoot.root crcG ^ n ≠ 1 := by
    intro n hn h e
    rw [← root_pow' n hn, ← cls_top] at e
    exact h (cls_inj _ _ e)
  apply orderOf_eq_of_pow_and_pow_div_prime (by norm_num)
  · rw [← root_pow' _ (by norm_num), ← cls_top]
    exact congrArg cls (by decide +kernel)
  · intro p hp hd
    have hf : 2 ^ 32 - 1 = 3 * (5 * (17 * (257 * 65537))) := by norm_num
    have q3 : Nat.Prime 3 := by norm_num
    have q5 : Nat.Prime 5 := by norm_num
    have q17 : Nat.Prime 17 := by norm_num
    have q257 : Nat.Prime 257 := by norm_num
    have q65537 : Nat.Prime 65537 := by norm_num
    rw [hf, hp.dvd_mul, hp.dvd_mul, hp.dvd_mul, hp.dvd_mul, Nat.prime_dvd_prime_iff_eq hp q3, Nat.prime_dvd_prime_iff_eq hp q5,
      Nat.prime_dvd_prime_iff_eq hp q17, Nat.prime_dvd_prime_iff_eq hp q257, Nat.prime_dvd_prime_iff_eq hp q65537] at hd
    rcases hd with rfl | rfl | rfl | rfl | rfl
    · exact ne _ (by norm_num) (by decide +kernel)
    · exact ne _ (by norm_num) (by decide +kernel)
    · exact ne _ (by norm_num) (by decide +kernel)
    · exact ne _ (by norm_num) (by decide +kernel)
    · exact ne _ (by norm_num) (by decide +kernel)

theorem coprime_X (k : Nat) : IsCoprime crcG (X ^ k) := by
  apply IsCoprime.pow_right
  refine ⟨1, -(X ^ 31 + X ^ 25 + X ^ 22 + X ^ 21 + X ^ 15 + X ^ 11 + X ^ 10 + X ^ 9 + X ^ 7 + X ^ 6 + X ^ 4 + X ^ 3 + X + 1), ?_⟩
  unfold crcG
  ring

/-- Two set bits at distance below `2^32 - 1` are not annihilated. -/
theorem two_bits (a k : Nat) (hk : 0 < k) (hk2 : k < 2 ^ 32 - 1) : ¬ crcG ∣ X ^ 32 * (X ^ (a + k) + X ^ a) := by
  intro h
  have e : (X : Polynomial (ZMod 2)) ^ 32 * (X ^ (a + k) + X ^ a) = X ^ (32 + a) * (X ^ k + 1) := by ring
  rw [e] at h
  have h1 := (coprime_X (32 + a)).dvd_of_dvd_mul_left h
  have h2 := AdjoinRoot.mk_eq_zero.2 h1
  rw [map_add, map_pow, map_one, AdjoinRoot.mk_X] at h2
  have h3 : AdjoinRoot.root crcG ^ k = 1 := by
    have t : (2 : AdjoinRoot crcG) = 0 := by
      have := congrArg (AdjoinRoot.mk crcG) two_zero
      rwa [map_ofNat, map_zero] at this
    linear_combination h2 - t
  have h4 := orderOf_dvd_of_pow_eq_one h3
  rw [root_order] at h4
  exact absurd (Nat.le_of_dvd hk h4) (by omega)

theorem polyOf_two (l : List Bool) (i j : Nat) (hij : i < j) (hj : j < l.length) (h : ∀ k (hk : k < l.length), l[k] = true ↔ k = i ∨ k = j) :
    polyOf l = X ^ (l.length - 1 - i) + X ^ (l.length - 1 - j) := by
  have e : l = (List.range l.length).map fun k => decide (k = i ∨ k = j) := by
    apply List.ext_getElem (by simp)
    intro k h1 h2
    rw [List.getElem_map, List.getElem_range, Bool.eq_iff_iff, h k h1, decide_eq_true_iff]
  conv => lhs; rw [e]
  rw [polyOf_range]
  have : ∀ k, ((if decide (k = i ∨ k = j) = true then 1 else 0) * X ^ (l.length - 1 - k) : Polynomial (ZMod 2)) =
      (if k = i then X ^ (l.length - 1 - i) else 0) + (if k = j then X ^ (l.length - 1 - j) else 0) := by
    intro k
    by_cases h1 : k = i
    · subst h1; have : k ≠ j := by omega
      simp [this]
    · by_cases h2 : k = j
      · subst h2; simp [h1]
      · simp [h1, h2]
  simp only [this]
  rw [Finset.sum_add_distrib, Finset.sum_ite_eq', Finset.sum_ite_eq', if_pos (Finset.mem_range.2 (by omega)), if_pos (Finset.mem_range.2 hj)]

/-- CRC-32 detects every change of exactly two bits at a distance below `2^32 - 1`. -/
theorem crc_two_bits (p p' : Bytes) (i j : Nat) (hl : p.length = p'.length) (hij : i < j) (hd : j - i < 2 ^ 32 - 1) (hj : j < 8 * p.length)
    (h : ∀ k, k < 8 * p.length → (bitAt p k ≠ bitAt p' k ↔ k = i ∨ k = j)) : Crc32.checksum p ≠ Crc32.checksum p' := by
  intro he
  rw [Crc32.checksum_eq_iff _ _ hl, Crc32.foldl_bits] at he
  have hf := fold_dvd (Crc32.allBits (List.zipWith (· ^^^ ·) p p')) 0
  have hlen : (List.zipWith (· ^^^ ·) p p').length = p.length := by simp; omega
  have hlen2 : (Crc32.allBits (List.zipWith (· ^^^ ·) p p')).length = 8 * p.length := by rw [allBits_length, hlen]
  rw [he, regP_zero, mul_zero, zero_add, zero_add, polyOf_two _ i j hij (by omega), hlen2] at hf
  · have e1 : 8 * p.length - 1 - i = (8 * p.length - 1 - j) + (j - i) := by omega
    rw [e1] at hf
    exact two_bits _ _ (by omega) hd hf
  · intro k hk
    rw [allBits_getElem]
    rw [hlen2] at hk
    rw [← h k hk]
    unfold bitAt
    have h1 : k / 8 < p.length := by omega
    have h2 : k / 8 < p'.length := by omega
    rw [List.getD_eq_getElem?_getD, List.getElem?_eq_getElem (by omega), Option.getD_some, List.getElem_zipWith]
    rw [List.getD_eq_getElem?_getD, List.getElem?_eq_getElem h1, Option.getD_some,
      List.getD_eq_getElem?_getD, List.getElem?_eq_getElem h2, Option.getD_some]
    rw [UInt8.toNat_xor, Nat.testBit_xor]
    cases Nat.testBit _ _ <;> cases Nat.testBit _ _ <;> simp

/-! ### The properties -/
open Cardano.Spec Cardano.Addr Cardano.Cbor

/-- **C66 (reading).** Every Byron address that is accepted is CBOR `[#6.24(payload), c]` whose checksum field denotes the IEEE CRC-32 of the
payload. -/
theorem C66_accepted_checksum_is_crc32 (strict : Bool) (data spare : Bytes) (b : ByronAddress)
    (h : NewAddressFromBytes strict data spare = .ok (.byron b)) :
    ∃ payload c n rest, parseFirst data = some (.array [.tag 24 (.bytes payload), c], rest) ∧ Denotes c n ∧ IsCrc32 payload n := by
  obtain ⟨⟨q, c, r, e, hc⟩, -⟩ := C48_accepted_byron_valid _ _ _ _ h
  exact ⟨q, c, _, r, e, hc, (checksum_iff _ _).1 rfl⟩

/-- **C66 (writing).** The bytes of a Byron address are CBOR `[#6.24(payload), n]` with nothing behind, where `n` is the IEEE CRC-32 of the
payload. -/
theorem C66_written_checksum_is_crc32 (b : ByronAddress) (hb : ByronOk b) :
    ∃ payload n, parseFirst (bytes (.byron b)) = some (.array [.tag 24 (.bytes payload), .uint n], []) ∧ IsCrc32 payload n := by
  have e1 := (Byron.bytes_enc (Byron.rawBytes b) (Byron.raw_length b hb) (UInt64.ofNat (Crc32.checksum (Byron.rawBytes b)).toNat)).parseFirst []
  rw [List.append_nil] at e1
  refine ⟨_, _, e1, (checksum_iff _ _).1 ?_⟩
  have := UInt32.toNat_lt (Crc32.checksum (Byron.rawBytes b))
  rw [UInt64.toNat_ofNat', Nat.mod_eq_of_lt (by omega)]

/-- **C47 (two bits).** Take an accepted Byron address and flip exactly two bits of its tag-24 payload, at any distance below 2^32 - 1 bits:
the result is not accepted. -/
theorem C47_byron_two_bits_detected (strict strict' : Bool) (data data' spare spare' : Bytes) (b : ByronAddress)
    (p p' : Bytes) (c : Item) (rest rest' : Bytes) (i j : Nat)
    (h : NewAddressFromBytes strict data spare = .ok (.byron b))
    (hd : parseFirst data = some (.array [.tag 24 (.bytes p), c], rest))
    (hd' : parseFirst data' = some (.array [.tag 24 (.bytes p'), c], rest'))
    (hl : p.length = p'.length) (hij : i < j) (hdist : j - i < 2 ^ 32 - 1) (hj : j < 8 * p.length)
    (hflip : ∀ k, k < 8 * p.length → (bitAt p k ≠ bitAt p' k ↔ k = i ∨ k = j)) :
    ∀ b', NewAddressFromBytes strict' data' spare' ≠ .ok (.byron b') := by
  intro b' hb'
  obtain ⟨⟨q, cc, r, e, hc⟩, _⟩ := C48_accepted_byron_valid _ _ _ _ h
  obtain ⟨⟨q', cc', r', e', hc'⟩, _⟩ := C48_accepted_byron_valid _ _ _ _ hb'
  rw [hd] at e
  rw [hd'] at e'
  cases e
  cases e'
  exact crc_two_bits p p' i j hl hij hdist hj hflip (UInt32.toNat_inj.1 (denotes_fun hc hc'))

/-- The published check value of CRC-32: the specification is met by a concrete message. -/
example : IsCrc32 (asc ['1','2','3','4','5','6','7','8','9']) 0xcbf43926 := (checksum_iff _ _).1 (by decide +kernel)

/-- Non-vacuity for the two-bit case: the first bit of the first and of the third byte. -/
example : ∀ k, k < 24 → (bitAt [1, 2, 3] k ≠ bitAt [0, 2, 2] k ↔ k = 0 ∨ k = 16) := by decide

theorem array_head (bs : Bytes) (xs : List Item) (r : Bytes) (h : parseFirst bs = some (.array xs, r)) : ∃ b t, bs = b :: t ∧ b.toNat / 32 = 4 := by
  unfold parseFirst readItem readItemWith at h
  cases bs with
  | nil => simp [readHead] at h
  | cons b t =>
    refine ⟨b, t, rfl, ?_⟩
    have hm : ∀ m ai n r', readHead (b :: t) = some (m, ai, n, r') → m = b.toNat / 32 := by
      intro m ai n r' e
      simp only [readHead] at e
      split at e
      · cases e; rfl
      · split at e
        · split at e
          · cases e
          · cases e; rfl
        · split at e
          · cases e; rfl
          · cases e
    split at h
    · cases h
    · rename_i major ai n r' e
      rw [← hm _ _ _ _ e]
      dsimp only at h
      split at h
      · split at h <;> simp at h
      · split at h <;> simp at h
      · simp at h
      · simp at h
      · rfl
      · obtain ⟨⟨ys, r''⟩, _, h⟩ := Option.bind_eq_some_iff.1 h
        dsimp only at h
        split at h <;> simp at h
      · split at h
        · simp at h
        · obtain ⟨⟨ys, r''⟩, _, h⟩ := Option.bind_eq_some_iff.1 h
          dsimp only at h
          split at h <;> simp at h
      · split at h
        · simp at h
        · split at h
          · simp at h
          · split at h
            · split at h <;> simp at h
            · simp at h

/-- **C47 (rejection).** Bytes that begin with a CBOR array and are not accepted as a Byron address are not accepted as any other address either, and do not make the parser panic: an error is
returned. So the theorems above about Byron addresses are about rejection. -/
theorem C47_rejected (strict : Bool) (data spare : Bytes) (xs : List Item) (rest : Bytes) (hd : parseFirst data = some (.array xs, rest))
    (h : ∀ b, NewAddressFromBytes strict data spare ≠ .ok (.byron b)) : ∃ m, NewAddressFromBytes strict data spare = .err m := by
  obtain ⟨b, t, rfl, hb⟩ := array_head data xs rest hd
  cases e : NewAddressFromBytes strict (b :: t) spare with
  | err m => exact ⟨m, rfl⟩
  | panic =>
    have := ((C06_panics_iff_partial strict (b :: t) spare).1 e).1
    omega
  | ok a =>
    obtain ⟨h1, _⟩ := (C12_header_decides_type strict b t spare).1 a e
    have : b.toNat / 16 = 8 ∨ b.toNat / 16 = 9 := by omega
    rcases this with h8 | h9
    · rw [h8] at h1
      cases a with
      | byron x => exact absurd e (h x)
      | _ => cases h1
    · rw [h9] at h1; cases h1

end Cardano.Props
