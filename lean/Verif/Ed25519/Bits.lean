import Verif.Bip32.Spec
import Verif.Ed25519.ScalarModel
import Mathlib.Tactic.LinearCombination
import Mathlib.Tactic.Zify
/-!
# Loads, limbs and bytes as arithmetic on little-endian numbers
-/
set_option autoImplicit false

namespace Cardano.Ed

theorem at8_eq : ∀ (b : Bytes) (k : Nat), at8 b k = leNat b / 256 ^ k % 256
  | [], k => by simp [at8, leNat]
  | x :: b, 0 => by
    have := UInt8.toNat_lt x
    simp only [at8, List.getD_cons_zero, leNat, Nat.pow_zero, Nat.div_one]
    omega
  | x :: b, k + 1 => by
    have := UInt8.toNat_lt x
    have ih := at8_eq b k
    simp only [at8, List.getD_cons_succ, leNat] at *
    rw [ih, Nat.pow_succ', ← Nat.div_div_eq_div_mul, show (x.toNat + 256 * leNat b) / 256 = leNat b by omega]

theorem or_shift {a b n : Nat} (h : a < 2 ^ n) : a ||| b <<< n = a + b * 2 ^ n := by
  rw [Nat.or_comm, ← Nat.shiftLeft_add_eq_or_of_lt h, Nat.shiftLeft_eq, Nat.add_comm]

theorem at8_lt (b : Bytes) (k : Nat) : at8 b k < 256 := UInt8.toNat_lt _

theorem div_pow_succ (x k : Nat) : x / 256 ^ (k + 1) = x / 256 ^ k / 256 := by
  rw [Nat.pow_succ, Nat.div_div_eq_div_mul]

theorem load3_eq (b : Bytes) (k : Nat) : load3 b k = leNat b / 256 ^ k % 2 ^ 24 := by
  have h0 := at8_lt b k
  have h1 := at8_lt b (k + 1)
  have h2 := at8_lt b (k + 2)
  have e0 := at8_eq b k
  have e1 := at8_eq b (k + 1)
  have e2 := at8_eq b (k + 2)
  rw [show k + 2 = k + 1 + 1 from rfl, div_pow_succ, div_pow_succ] at e2
  rw [div_pow_succ] at e1
  unfold load3
  rw [or_shift (a := at8 b k) (n := 8) (by omega), or_shift (by omega)]
  generalize leNat b / 256 ^ k = x at *
  simp only [show k + 1 + 1 = k + 2 from rfl] at *
  rw [e0, e1, e2]
  omega

theorem load4_eq (b : Bytes) (k : Nat) : load4 b k = leNat b / 256 ^ k % 2 ^ 32 := by
  have h3 := at8_lt b (k + 3)
  have e3 := at8_eq b (k + 3)
  rw [show k + 3 = k + 1 + 1 + 1 from rfl, div_pow_succ, div_pow_succ, div_pow_succ] at e3
  have e := load3_eq b k
  unfold load3 at e
  unfold load4
  have hl : at8 b k ||| at8 b (k + 1) <<< 8 ||| at8 b (k + 2) <<< 16 < 2 ^ 24 := by rw [e]; omega
  rw [or_shift hl, e]
  generalize leNat b / 256 ^ k = x at *
  simp only [show k + 1 + 1 + 1 = k + 3 from rfl] at *
  rw [e3]
  omega

theorem mask21 (x : Nat) : 2097151 &&& x = x % 2 ^ 21 := by
  rw [Nat.and_comm]; exact Nat.and_two_pow_sub_one_eq_mod x 21

/-- `n` limbs of 21 bits and a last, unbounded one. -/
def cut : Nat → Nat → Limbs
  | 0, x => [(x : Int)]
  | n + 1, x => ((x % 2 ^ 21 : Nat) : Int) :: cut n (x / 2 ^ 21)

theorem limb_eq (x k n r : Nat) (h : r + 21 ≤ n) :
    x / 256 ^ k % 2 ^ n / 2 ^ r % 2 ^ 21 = x / 2 ^ (8 * k + r) % 2 ^ 21 := by
  obtain ⟨m, rfl⟩ : ∃ m, n = r + (21 + m) := ⟨n - r - 21, by omega⟩
  rw [Nat.pow_add 2 r, Nat.mod_mul_right_div_self, Nat.div_div_eq_div_mul, Nat.pow_add 2 21 m, Nat.mod_mul_right_mod,
    show (256 : Nat) = 2 ^ 8 from rfl, ← Nat.pow_mul, ← Nat.pow_add]

theorem limb_top (x k r : Nat) (h : x < 2 ^ (8 * k + 32)) : x / 256 ^ k % 2 ^ 32 / 2 ^ r = x / 2 ^ (8 * k + r) := by
  rw [show (256 : Nat) = 2 ^ 8 from rfl, ← Nat.pow_mul, Nat.mod_eq_of_lt, Nat.div_div_eq_div_mul, ← Nat.pow_add]
  exact Nat.div_lt_of_lt_mul (by rwa [← Nat.pow_add])

theorem limbs32_eq {a : Bytes} (h : a.length = 32) : limbs32 a = cut 11 (leNat a) := by
  have hl := leNat_lt a
  rw [h] at hl
  have e0 : ∀ k, leNat a / 256 ^ k % 2 ^ 24 % 2 ^ 21 = leNat a / 2 ^ (8 * k + 0) % 2 ^ 21 := fun k => by
    rw [← limb_eq _ k 24 0 (by omega), Nat.pow_zero, Nat.div_one]
  simp only [limbs32, List.map_cons, List.map_nil, cut, load3_eq, load4_eq, mask21, Nat.shiftRight_eq_div_pow]
  rw [limb_top _ 28 7 (by rw [show (8 * 28 + 32) = 8 * 32 from rfl, Nat.pow_mul]; exact hl)]
  simp only [e0, limb_eq _ _ 24 2 (by omega), limb_eq _ _ 24 1 (by omega), limb_eq _ _ 24 3 (by omega),
    limb_eq _ _ 32 5 (by omega), limb_eq _ _ 32 7 (by omega), limb_eq _ _ 32 4 (by omega), limb_eq _ _ 32 6 (by omega)]
  simp only [Nat.div_div_eq_div_mul, ← Nat.pow_add, Nat.reduceAdd, Nat.reduceMul, Nat.pow_zero, Nat.div_one]

theorem limbs64_eq {a : Bytes} (h : a.length = 64) : limbs64 a = cut 23 (leNat a) := by
  have hl := leNat_lt a
  rw [h] at hl
  have e0 : ∀ k, leNat a / 256 ^ k % 2 ^ 24 % 2 ^ 21 = leNat a / 2 ^ (8 * k + 0) % 2 ^ 21 := fun k => by
    rw [← limb_eq _ k 24 0 (by omega), Nat.pow_zero, Nat.div_one]
  simp only [limbs64, List.map_cons, List.map_nil, cut, load3_eq, load4_eq, mask21, Nat.shiftRight_eq_div_pow]
  rw [limb_top _ 60 3 (by rw [show (8 * 60 + 32) = 8 * 64 from rfl, Nat.pow_mul]; exact hl)]
  simp only [e0, limb_eq _ _ 24 2 (by omega), limb_eq _ _ 24 1 (by omega), limb_eq _ _ 24 3 (by omega),
    limb_eq _ _ 32 5 (by omega), limb_eq _ _ 32 7 (by omega), limb_eq _ _ 32 4 (by omega), limb_eq _ _ 32 6 (by omega)]
  simp only [Nat.div_div_eq_div_mul, ← Nat.pow_add, Nat.reduceAdd, Nat.reduceMul, Nat.pow_zero, Nat.div_one]

/-- Weights of 21-bit limbs. -/
def w21 (n : Nat) : List Int := (List.range n).map (fun i => 2 ^ (21 * i))

theorem dot_scale (c : Int) : ∀ (w : List Int) (s : Limbs), dot (w.map (c * ·)) s = c * dot w s
  | [], _ => by simp [dot]
  | _ :: _, [] => by simp [dot]
  | w :: ws, s :: ss => by
    simp only [List.map_cons, dot, dot_scale c ws ss, Int.mul_add, Int.mul_assoc]

theorem w21_succ (n : Nat) : w21 (n + 1) = 1 :: (w21 n).map ((2 ^ 21) * ·) := by
  unfold w21
  rw [List.range_succ_eq_map]
  simp only [List.map_cons, List.map_map]
  refine congrArg₂ List.cons (by simp) ?_
  apply List.map_congr_left
  intro i _
  simp only [Function.comp]
  rw [show 21 * Nat.succ i = 21 + 21 * i by omega, Int.pow_add]

theorem dot_cut (n : Nat) : ∀ x : Nat, dot (w21 (n + 1)) (cut n x) = x := by
  induction n with
  | zero => intro x; simp [w21, cut, dot]
  | succ n ih =>
    intro x
    rw [w21_succ (n + 1), cut, dot, dot_scale, ih]
    omega

theorem cut_length (n x : Nat) : (cut n x).length = n + 1 := by
  induction n generalizing x with
  | zero => rfl
  | succ n ih => simp [cut, ih]

theorem lowByte_toNat (n k : Nat) : (lowByte (n : Int) k).toNat = n / 2 ^ k % 256 := by
  unfold lowByte byteOf
  rw [show ((n : Int) / 2 ^ k % 256).toNat = n / 2 ^ k % 256 by
    rw [show (2 : Int) ^ k = ((2 ^ k : Nat) : Int) by simp]; omega]
  simp

theorem byteOf_nat (n : Nat) : (byteOf (n : Int)).toNat = n % 256 := by
  have := lowByte_toNat n 0
  simpa [lowByte] using this

theorem joinByte_toNat {x y k m : Nat} (hx : x / 2 ^ k < 2 ^ m) (hm : m ≤ 8) :
    (joinByte (x : Int) k (y : Int) m).toNat = x / 2 ^ k + y % 2 ^ (8 - m) * 2 ^ m := by
  unfold joinByte
  have e1 : byteOf ((x : Int) / 2 ^ k) = UInt8.ofNat (x / 2 ^ k) := by
    apply UInt8.toNat_inj.1
    rw [show (x : Int) / 2 ^ k = ((x / 2 ^ k : Nat) : Int) by simp, byteOf_nat]; simp
  have e2 : byteOf ((y : Int) * 2 ^ m) = UInt8.ofNat (y * 2 ^ m) := by
    apply UInt8.toNat_inj.1
    rw [show (y : Int) * 2 ^ m = ((y * 2 ^ m : Nat) : Int) by simp, byteOf_nat]; simp
  have h8 : (2 : Nat) ^ m ≤ 256 := by
    have := Nat.pow_le_pow_right (n := 2) (by omega) hm; omega
  have e3 : y * 2 ^ m % 256 = y % 2 ^ (8 - m) * 2 ^ m := by
    rw [show 256 = 2 ^ (8 - m) * 2 ^ m by rw [← Nat.pow_add, show 8 - m + m = 8 by omega], Nat.mul_mod_mul_right]
  rw [e1, e2, UInt8.toNat_or, UInt8.toNat_ofNat', UInt8.toNat_ofNat', Nat.mod_eq_of_lt (by omega : x / 2 ^ k < 2 ^ 8),
    show (2 : Nat) ^ 8 = 256 from rfl, e3, ← Nat.shiftLeft_eq (y % 2 ^ (8 - m)), or_shift hx, Nat.shiftLeft_eq]

theorem packScalar_eq {s : Limbs} (h : ∀ i, i < 11 → 0 ≤ lget s i ∧ lget s i < 2 ^ 21)
    (h11 : 0 ≤ lget s 11 ∧ lget s 11 < 2 ^ 25) :
    (leNat (packScalar s) : Int) = dot (w21 12) [lget s 0, lget s 1, lget s 2, lget s 3, lget s 4, lget s 5, lget s 6, lget s 7,
      lget s 8, lget s 9, lget s 10, lget s 11] := by
  have b0 := h 0 (by decide)
  have b1 := h 1 (by decide)
  have b2 := h 2 (by decide)
  have b3 := h 3 (by decide)
  have b4 := h 4 (by decide)
  have b5 := h 5 (by decide)
  have b6 := h 6 (by decide)
  have b7 := h 7 (by decide)
  have b8 := h 8 (by decide)
  have b9 := h 9 (by decide)
  have b10 := h 10 (by decide)
  unfold packScalar
  generalize lget s 0 = s0 at *
  generalize lget s 1 = s1 at *
  generalize lget s 2 = s2 at *
  generalize lget s 3 = s3 at *
  generalize lget s 4 = s4 at *
  generalize lget s 5 = s5 at *
  generalize lget s 6 = s6 at *
  generalize lget s 7 = s7 at *
  generalize lget s 8 = s8 at *
  generalize lget s 9 = s9 at *
  generalize lget s 10 = s10 at *
  generalize lget s 11 = s11 at *
  obtain ⟨n0, rfl⟩ := Int.eq_ofNat_of_zero_le b0.1
  obtain ⟨n1, rfl⟩ := Int.eq_ofNat_of_zero_le b1.1
  obtain ⟨n2, rfl⟩ := Int.eq_ofNat_of_zero_le b2.1
  obtain ⟨n3, rfl⟩ := Int.eq_ofNat_of_zero_le b3.1
  obtain ⟨n4, rfl⟩ := Int.eq_ofNat_of_zero_le b4.1
  obtain ⟨n5, rfl⟩ := Int.eq_ofNat_of_zero_le b5.1
  obtain ⟨n6, rfl⟩ := Int.eq_ofNat_of_zero_le b6.1
  obtain ⟨n7, rfl⟩ := Int.eq_ofNat_of_zero_le b7.1
  obtain ⟨n8, rfl⟩ := Int.eq_ofNat_of_zero_le b8.1
  obtain ⟨n9, rfl⟩ := Int.eq_ofNat_of_zero_le b9.1
  obtain ⟨n10, rfl⟩ := Int.eq_ofNat_of_zero_le b10.1
  obtain ⟨n11, rfl⟩ := Int.eq_ofNat_of_zero_le h11.1
  have hw : w21 12 = [1, 2^21, 2^42, 2^63, 2^84, 2^105, 2^126, 2^147, 2^168, 2^189, 2^210, 2^231] := by decide +kernel
  rw [hw]
  simp only [leNat, lowByte_toNat, dot]
  rw [joinByte_toNat (x := n0) (by omega) (by decide), joinByte_toNat (x := n1) (by omega) (by decide),
    joinByte_toNat (x := n2) (by omega) (by decide), joinByte_toNat (x := n3) (by omega) (by decide),
    joinByte_toNat (x := n4) (by omega) (by decide), joinByte_toNat (x := n5) (by omega) (by decide),
    joinByte_toNat (x := n6) (by omega) (by decide), joinByte_toNat (x := n8) (by omega) (by decide),
    joinByte_toNat (x := n9) (by omega) (by decide), joinByte_toNat (x := n10) (by omega) (by decide)]
  have c0 : n0 / 2 ^ 0 % 256 + 256 * (n0 / 2 ^ 8 % 256) + 65536 * (n0 / 2 ^ 16) = n0 := by omega
  have c1 : n1 % 2 ^ (8 - 5) * 2 ^ 5 + 2^8 * (n1 / 2 ^ 3 % 256) + 2^16 * (n1 / 2 ^ 11 % 256) + 2^24 * (n1 / 2 ^ 19) = 2^5 * n1 := by omega
  have c2 : n2 % 2 ^ (8 - 2) * 2 ^ 2 + 2^8 * (n2 / 2 ^ 6 % 256) + 2^16 * (n2 / 2 ^ 14) = 2^2 * n2 := by omega
  have c3 : n3 % 2 ^ (8 - 7) * 2 ^ 7 + 2^8 * (n3 / 2 ^ 1 % 256) + 2^16 * (n3 / 2 ^ 9 % 256) + 2^24 * (n3 / 2 ^ 17) = 2^7 * n3 := by omega
  have c4 : n4 % 2 ^ (8 - 4) * 2 ^ 4 + 2^8 * (n4 / 2 ^ 4 % 256) + 2^16 * (n4 / 2 ^ 12 % 256) + 2^24 * (n4 / 2 ^ 20) = 2^4 * n4 := by omega
  have c5 : n5 % 2 ^ (8 - 1) * 2 ^ 1 + 2^8 * (n5 / 2 ^ 7 % 256) + 2^16 * (n5 / 2 ^ 15) = 2^1 * n5 := by omega
  have c6 : n6 % 2 ^ (8 - 6) * 2 ^ 6 + 2^8 * (n6 / 2 ^ 2 % 256) + 2^16 * (n6 / 2 ^ 10 % 256) + 2^24 * (n6 / 2 ^ 18) = 2^6 * n6 := by omega
  have c7 : n7 % 2 ^ (8 - 3) * 2 ^ 3 + 2^8 * (n7 / 2 ^ 5 % 256) + 2^16 * (n7 / 2 ^ 13 % 256) = 2^3 * n7 := by omega
  have c8 : n8 / 2 ^ 0 % 256 + 256 * (n8 / 2 ^ 8 % 256) + 65536 * (n8 / 2 ^ 16) = n8 := by omega
  have c9 : n9 % 2 ^ (8 - 5) * 2 ^ 5 + 2^8 * (n9 / 2 ^ 3 % 256) + 2^16 * (n9 / 2 ^ 11 % 256) + 2^24 * (n9 / 2 ^ 19) = 2^5 * n9 := by omega
  have c10 : n10 % 2 ^ (8 - 2) * 2 ^ 2 + 2^8 * (n10 / 2 ^ 6 % 256) + 2^16 * (n10 / 2 ^ 14) = 2^2 * n10 := by omega
  have c11 : n11 % 2 ^ (8 - 7) * 2 ^ 7 + 2^8 * (n11 / 2 ^ 1 % 256) + 2^16 * (n11 / 2 ^ 9 % 256) + 2^24 * (n11 / 2 ^ 17 % 256) = 2^7 * n11 := by omega
  clear b0 b1 b2 b3 b4 b5 b6 b7 b8 b9 b10 h11 h hw
  simp only [Nat.reducePow, Nat.reduceSub, Nat.div_one] at *
  zify at c0 c1 c2 c3 c4 c5 c6 c7 c8 c9 c10 c11
  push_cast
  linear_combination c0 + 2 ^ 16 * c1 + 2 ^ 40 * c2 + 2 ^ 56 * c3 + 2 ^ 80 * c4 + 2 ^ 104 * c5 + 2 ^ 120 * c6 + 2 ^ 144 * c7 + 2 ^ 168 * c8 + 2 ^ 184 * c9 + 2 ^ 208 * c10 + 2 ^ 224 * c11

end Cardano.Ed
