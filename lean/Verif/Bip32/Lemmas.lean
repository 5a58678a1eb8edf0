import Verif.Bip32.Keys
import Verif.Bip32.Spec
/-!
# The carry loops of `bip32.go`
-/
set_option autoImplicit false

namespace Cardano.Bip32

theorem low_byte (r : UInt16) : (r &&& 0xff).toUInt8.toNat = r.toNat % 256 := by
  have h : (r &&& 0xff).toNat = r.toNat % 256 := by
    rw [UInt16.toNat_and, show (0xff : UInt16).toNat = 2 ^ 8 - 1 from rfl, Nat.and_two_pow_sub_one_eq_mod]
  rw [UInt16.toNat_toUInt8, h]
  omega

theorem shr8 (r : UInt16) : (r >>> 8).toNat = r.toNat / 256 := by
  rw [UInt16.toNat_shiftRight, show (8 : UInt16).toNat % 16 = 8 from rfl, Nat.shiftRight_eq_div_pow]

theorem addLoop_spec (l : List (UInt8 × UInt8)) : ∀ c : UInt16, c.toNat ≤ 1 →
    (addLoop l c).length = l.length ∧
    leNat (addLoop l c) = (leNat (l.map Prod.fst) + leNat (l.map Prod.snd) + c.toNat) % 256 ^ l.length := by
  induction l with
  | nil => intro c hc; simp [addLoop, leNat]; omega
  | cons p l ih =>
    intro c hc
    obtain ⟨x, y⟩ := p
    have hx := UInt8.toNat_lt x
    have hy := UInt8.toNat_lt y
    have hr : (x.toUInt16 + y.toUInt16 + c).toNat = x.toNat + y.toNat + c.toNat := by
      rw [UInt16.toNat_add, UInt16.toNat_add, UInt8.toNat_toUInt16, UInt8.toNat_toUInt16]; omega
    have hs := shr8 (x.toUInt16 + y.toUInt16 + c)
    rw [hr] at hs
    obtain ⟨h1, h2⟩ := ih ((x.toUInt16 + y.toUInt16 + c) >>> 8) (by omega)
    simp only [addLoop, List.length_cons, h1, leNat, low_byte, h2, hs, hr, List.map_cons, true_and]
    rw [show (256 : Nat) ^ (l.length + 1) = 256 * 256 ^ l.length from Nat.pow_succ', Nat.mod_mul]
    congr 1
    · omega
    · congr 2
      omega

theorem carryLoop_spec (l : List UInt8) : ∀ c : UInt16, c.toNat ≤ 255 →
    (carryLoop l c).length = l.length ∧ leNat (carryLoop l c) = (leNat l + c.toNat) % 256 ^ l.length := by
  induction l with
  | nil => intro c hc; simp [carryLoop, leNat, Nat.mod_one]
  | cons x l ih =>
    intro c hc
    have hx := UInt8.toNat_lt x
    have hr : (x.toUInt16 + c).toNat = x.toNat + c.toNat := by
      rw [UInt16.toNat_add, UInt8.toNat_toUInt16]; omega
    have hs := shr8 (x.toUInt16 + c)
    rw [hr] at hs
    obtain ⟨h1, h2⟩ := ih ((x.toUInt16 + c) >>> 8) (by omega)
    simp only [carryLoop, List.length_cons, h1, leNat, low_byte, h2, hs, hr, true_and]
    rw [show (256 : Nat) ^ (l.length + 1) = 256 * 256 ^ l.length from Nat.pow_succ', Nat.mod_mul]
    congr 1
    · omega
    · congr 2
      omega

theorem mul8Loop_spec (l : List (UInt8 × UInt8)) : ∀ c : UInt16, c.toNat ≤ 8 →
    (mul8Loop l c).1.length = l.length ∧ (mul8Loop l c).2.toNat ≤ 8 ∧
    leNat (mul8Loop l c).1 + 256 ^ l.length * (mul8Loop l c).2.toNat =
      leNat (l.map Prod.fst) + 8 * leNat (l.map Prod.snd) + c.toNat := by
  induction l with
  | nil => intro c hc; simp [mul8Loop, leNat]; omega
  | cons p l ih =>
    intro c hc
    obtain ⟨x, y⟩ := p
    have hx := UInt8.toNat_lt x
    have hy := UInt8.toNat_lt y
    have hy8 : (y.toUInt16 <<< 3).toNat = 8 * y.toNat := by
      rw [UInt16.toNat_shiftLeft, UInt8.toNat_toUInt16, show (3 : UInt16).toNat % 16 = 3 from rfl, Nat.shiftLeft_eq]; omega
    have hr : (x.toUInt16 + (y.toUInt16 <<< 3) + c).toNat = x.toNat + 8 * y.toNat + c.toNat := by
      rw [UInt16.toNat_add, UInt16.toNat_add, UInt8.toNat_toUInt16, hy8]; omega
    have hs := shr8 (x.toUInt16 + (y.toUInt16 <<< 3) + c)
    rw [hr] at hs
    obtain ⟨h1, h2, h3⟩ := ih ((x.toUInt16 + (y.toUInt16 <<< 3) + c) >>> 8) (by omega)
    refine ⟨by simp [mul8Loop, h1], by simpa [mul8Loop] using h2, ?_⟩
    simp only [mul8Loop, List.length_cons, leNat, low_byte, hr, List.map_cons]
    rw [show (256 : Nat) ^ (l.length + 1) = 256 * 256 ^ l.length from Nat.pow_succ', Nat.mul_assoc]
    omega

theorem map_fst_zip' {a b : Bytes} (h : a.length = b.length) : (a.zip b).map Prod.fst = a ∧ (a.zip b).map Prod.snd = b := by
  constructor
  · rw [List.map_fst_zip (by omega)]
  · rw [List.map_snd_zip (by omega)]

/-- `add256bits` is addition modulo `2^256`. -/
theorem add256bits_spec (x y : Bytes) (hx : x.length = 32) (hy : y.length = 32) :
    (add256bits x y).length = 32 ∧ leNat (add256bits x y) = (leNat x + leNat y) % 2 ^ 256 := by
  have hz : (x.zip y).length = 32 := by simp [hx, hy]
  obtain ⟨h1, h2⟩ := addLoop_spec (x.zip y) 0 (by decide)
  unfold add256bits
  rw [List.take_of_length_le (by omega), List.take_of_length_le (by omega)]
  obtain ⟨e1, e2⟩ := map_fst_zip' (show x.length = y.length by omega)
  rw [e1, e2, hz] at h2
  refine ⟨by rw [h1, hz], ?_⟩
  rw [h2]; rfl

/-- `add28mul8` adds eight times the first 28 bytes, modulo `2^256`. -/
theorem add28mul8_spec (x y : Bytes) (hx : x.length = 32) (hy : y.length = 32) :
    (add28mul8 x y).length = 32 ∧ leNat (add28mul8 x y) = (leNat x + 8 * leNat (y.take 28)) % 2 ^ 256 := by
  have hz : ((x.take 28).zip (y.take 28)).length = 28 := by simp [hx, hy]
  obtain ⟨h1, h2, h3⟩ := mul8Loop_spec ((x.take 28).zip (y.take 28)) 0 (by decide)
  obtain ⟨e1, e2⟩ := map_fst_zip' (show (x.take 28).length = (y.take 28).length by simp [hx, hy])
  rw [e1, e2, hz] at h3
  rw [hz] at h1
  unfold add28mul8
  generalize hm : mul8Loop ((x.take 28).zip (y.take 28)) 0 = m at *
  obtain ⟨out, c⟩ := m
  simp only at *
  have hd : ((x.drop 28).take 4).length = 4 := by simp [hx]
  obtain ⟨g1, g2⟩ := carryLoop_spec ((x.drop 28).take 4) c (by omega)
  rw [hd] at g1 g2
  refine ⟨by simp [h1, g1], ?_⟩
  have hxs : leNat x = leNat (x.take 28) + 256 ^ 28 * leNat ((x.drop 28).take 4) := by
    conv => lhs; rw [← List.take_append_drop 28 x]
    rw [leNat_append, List.take_of_length_le (show (x.drop 28).length ≤ 4 by simp [hx])]
    simp [hx]
  rw [leNat_append, h1, g2, hxs]
  have hlo := leNat_lt out
  rw [h1] at hlo
  generalize leNat (x.take 28) = A at *
  generalize leNat (y.take 28) = B at *
  generalize leNat ((x.drop 28).take 4) = D at *
  generalize leNat out = O at *
  have z0 : (0 : UInt16).toNat = 0 := rfl
  rw [z0] at h3
  omega

theorem modify_length (b : Bytes) (i : Nat) (f : UInt8 → UInt8) : (modifyAt b i f).length = b.length := by simp [modifyAt]

theorem le32_eq (n : UInt32) : le32 n = leBytes 4 n.toNat := by
  have h : ∀ k : UInt32, k.toNat < 32 → (n >>> k).toUInt8 = UInt8.ofNat (n.toNat / 2 ^ k.toNat) := by
    intro k hk
    apply UInt8.toNat_inj.1
    rw [UInt32.toNat_toUInt8, UInt32.toNat_shiftRight, Nat.mod_eq_of_lt hk, Nat.shiftRight_eq_div_pow, UInt8.toNat_ofNat']
  have h0 : n.toUInt8 = UInt8.ofNat n.toNat := by
    apply UInt8.toNat_inj.1
    rw [UInt32.toNat_toUInt8, UInt8.toNat_ofNat']
  simp only [le32, leBytes, h0, h 8 (by decide), h 16 (by decide), h 24 (by decide)]
  simp only [show (8 : UInt32).toNat = 8 from rfl, show (16 : UInt32).toNat = 16 from rfl, show (24 : UInt32).toNat = 24 from rfl,
    Nat.div_div_eq_div_mul]

end Cardano.Bip32
