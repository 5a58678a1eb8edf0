import Verif.Ed25519.Curve
import Verif.Ed25519.FieldRing
/-!
# The group of the curve `-x^2 + y^2 = 1 + d x^2 y^2` over the field of `2^255 - 19` elements
-/
set_option autoImplicit false

namespace Cardano.Ed
open Curve

/-- `d = -121665/121666` as a number. -/
def dN : Nat := 37095705934669439343138083508754565189542113879843219016388785533085940283555

/-- A square root of `-1` as a number. -/
def iN : Nat := 19681161376707505956807079304988542015446066515923890162744021073123829784752

/-- The curve constant. -/
def cd : F := ((dN : Nat) : F)

def ci : F := ((iN : Nat) : F)

theorem natCast_eq_of_mod {a b : Nat} (h : a % fieldP = b % fieldP) : (a : F) = (b : F) := (ZMod.natCast_eq_natCast_iff' a b fieldP).2 h

theorem natCast_ne_zero {a : Nat} (h : a % fieldP ≠ 0) : (a : F) ≠ 0 := by
  intro e
  rw [← Nat.cast_zero, ZMod.natCast_eq_natCast_iff'] at e
  exact h (by rw [e, Nat.zero_mod])

theorem cd_def : cd * 121666 = -121665 := by
  have h : ((dN * 121666 + 121665 : Nat) : F) = ((0 : Nat) : F) := natCast_eq_of_mod (by decide +kernel)
  unfold cd
  push_cast at h ⊢
  linear_combination h

theorem ci_sq : ci * ci = -1 := by
  have h : ((iN * iN + 1 : Nat) : F) = ((0 : Nat) : F) := natCast_eq_of_mod (by decide +kernel)
  unfold ci
  push_cast at h ⊢
  linear_combination h

theorem two_ne : (2 : F) ≠ 0 := by
  have := natCast_ne_zero (a := 2) (by decide +kernel)
  simpa using this

theorem natCast_pow_eq {a n b : Nat} (hn : n < 2 ^ 256) (h : powMod fieldP 256 a n = b) : (a : F) ^ n = (b : F) := by
  rw [natCast_powMod fieldP a n hn, h]

theorem cd_nonsquare (r : F) : r * r ≠ cd := by
  intro h
  have h1 : cd ^ ((fieldP - 1) / 2) = -1 := by
    unfold cd
    rw [natCast_pow_eq (b := fieldP - 1) (by decide +kernel) (by decide +kernel)]
    have : ((fieldP - 1 + 1 : Nat) : F) = ((0 : Nat) : F) := natCast_eq_of_mod (by decide +kernel)
    push_cast at this
    linear_combination this
  have hr : r ≠ 0 := by
    intro h0
    rw [h0, mul_zero] at h
    rw [← h, zero_pow (by decide +kernel)] at h1
    exact one_ne_zero (neg_eq_zero.1 h1.symm)
  have h2 : cd ^ ((fieldP - 1) / 2) = 1 := by
    rw [← h, ← sq, ← pow_mul, show 2 * ((fieldP - 1) / 2) = fieldP - 1 by decide +kernel]
    exact ZMod.pow_card_sub_one_eq_one hr
  rw [h1] at h2
  exact two_ne (by linear_combination -h2)

/-- Points of the curve. -/
@[ext] structure Pt where
  x : F
  y : F
  on : On cd x y

theorem Pt.den (P Q : Pt) : dp cd P.x P.y Q.x Q.y ≠ 0 ∧ dm cd P.x P.y Q.x Q.y ≠ 0 :=
  denoms ci_sq two_ne cd_nonsquare P.on Q.on

def Pt.add (P Q : Pt) : Pt := ⟨addX cd P.x P.y Q.x Q.y, addY cd P.x P.y Q.x Q.y, add_on P.on Q.on (Pt.den P Q).1 (Pt.den P Q).2⟩

def Pt.zero : Pt := ⟨0, 1, by unfold On; ring⟩

def Pt.neg (P : Pt) : Pt := ⟨-P.x, P.y, by have := P.on; unfold On at *; linear_combination this⟩

instance : Add Pt := ⟨Pt.add⟩
instance : Zero Pt := ⟨Pt.zero⟩
instance : Neg Pt := ⟨Pt.neg⟩

theorem Pt.add_x (P Q : Pt) : (P + Q).x = addX cd P.x P.y Q.x Q.y := rfl
theorem Pt.add_y (P Q : Pt) : (P + Q).y = addY cd P.x P.y Q.x Q.y := rfl
@[simp] theorem Pt.zero_x : (0 : Pt).x = 0 := rfl
@[simp] theorem Pt.zero_y : (0 : Pt).y = 1 := rfl
@[simp] theorem Pt.neg_x (P : Pt) : (-P).x = -P.x := rfl
@[simp] theorem Pt.neg_y (P : Pt) : (-P).y = P.y := rfl

protected theorem Pt.add_comm (P Q : Pt) : P + Q = Q + P := Pt.ext (add_comm_x ..) (add_comm_y ..)

protected theorem Pt.zero_add (P : Pt) : 0 + P = P := by
  apply Pt.ext
  · rw [Pt.add_x]; simp [addX, dp]
  · rw [Pt.add_y]; simp [addY, dm]

protected theorem Pt.neg_add (P : Pt) : -P + P = 0 := by
  have hd := Pt.den (-P) P
  have on := P.on
  apply Pt.ext
  · rw [Pt.add_x]
    unfold addX
    rw [div_eq_iff hd.1]
    simp only [Pt.neg_x, Pt.neg_y, Pt.zero_x]
    ring
  · rw [Pt.add_y]
    unfold addY
    rw [div_eq_iff hd.2]
    unfold On at on
    simp only [Pt.neg_x, Pt.neg_y, Pt.zero_y, dm]
    linear_combination on

protected theorem Pt.add_assoc (P Q R : Pt) : P + Q + R = P + (Q + R) := by
  rw [Pt.add_comm P (Q + R)]
  have h1 := Pt.den P Q
  have h2 := Pt.den Q R
  have h3 := Pt.den (P + Q) R
  have h4 := Pt.den (Q + R) P
  have nz : ∀ {P Q R : Pt}, dp cd P.x P.y Q.x Q.y * dm cd P.x P.y Q.x Q.y
      + cd * (P.x * Q.y + Q.x * P.y) * (P.y * Q.y + P.x * Q.x) * R.x * R.y ≠ 0 ∧
      dp cd P.x P.y Q.x Q.y * dm cd P.x P.y Q.x Q.y
      - cd * (P.x * Q.y + Q.x * P.y) * (P.y * Q.y + P.x * Q.x) * R.x * R.y ≠ 0 := by
    intro P Q R
    have h1 := Pt.den P Q
    have h3 := Pt.den (P + Q) R
    have a : (P + Q).x * dp cd P.x P.y Q.x Q.y = P.x * Q.y + Q.x * P.y := div_mul_cancel₀ _ h1.1
    have b : (P + Q).y * dm cd P.x P.y Q.x Q.y = P.y * Q.y + P.x * Q.x := div_mul_cancel₀ _ h1.2
    rw [← a, ← b]
    constructor
    · intro e
      have : dp cd P.x P.y Q.x Q.y * dm cd P.x P.y Q.x Q.y * dp cd (P + Q).x (P + Q).y R.x R.y = 0 := by
        conv_lhs => rw [dp.eq_def cd (P + Q).x]
        linear_combination e
      exact mul_ne_zero (mul_ne_zero h1.1 h1.2) h3.1 this
    · intro e
      have : dp cd P.x P.y Q.x Q.y * dm cd P.x P.y Q.x Q.y * dm cd (P + Q).x (P + Q).y R.x R.y = 0 := by
        conv_lhs => rw [dm.eq_def cd (P + Q).x]
        linear_combination e
      exact mul_ne_zero (mul_ne_zero h1.1 h1.2) h3.2 this
  apply Pt.ext
  · rw [Pt.add_x (P + Q), Pt.add_x (Q + R), Pt.add_x P Q, Pt.add_y P Q, Pt.add_x Q R, Pt.add_y Q R,
      triple_x h1.1 h1.2, triple_x h2.1 h2.2, div_eq_div_iff nz.1 nz.1]
    exact assoc_poly_x P.on Q.on R.on
  · rw [Pt.add_y (P + Q), Pt.add_y (Q + R), Pt.add_x P Q, Pt.add_y P Q, Pt.add_x Q R, Pt.add_y Q R,
      triple_y h1.1 h1.2, triple_y h2.1 h2.2, div_eq_div_iff nz.2 nz.2]
    exact assoc_poly_y P.on Q.on R.on

/-- The curve points form a commutative group. -/
instance : AddCommGroup Pt where
  add_assoc := Pt.add_assoc
  zero_add := Pt.zero_add
  add_zero P := by rw [Pt.add_comm]; exact Pt.zero_add P
  neg_add_cancel := Pt.neg_add
  add_comm := Pt.add_comm
  nsmul := nsmulRec
  zsmul := zsmulRec

end Cardano.Ed
