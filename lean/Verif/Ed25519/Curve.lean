import Mathlib.Tactic.LinearCombination
import Mathlib.Tactic.FieldSimp
import Mathlib.Tactic.Ring
import Mathlib.Algebra.Field.Basic
/-!
# The twisted Edwards addition law is complete and associative

Over any field in which `-1 = i^2` is a square and `d` is not. The cofactors of the associativity identities were computed by polynomial
division; the kernel checks them.
-/
set_option autoImplicit false

namespace Cardano.Curve

variable {K : Type*} [Field K]

/-- `(x, y)` is on the curve `-x^2 + y^2 = 1 + d x^2 y^2`. -/
def On (d x y : K) : Prop := -x ^ 2 + y ^ 2 = 1 + d * x ^ 2 * y ^ 2

/-- The denominators of the addition law. -/
def dp (d x1 y1 x2 y2 : K) : K := 1 + d * x1 * x2 * y1 * y2
def dm (d x1 y1 x2 y2 : K) : K := 1 - d * x1 * x2 * y1 * y2

/-- The addition law. -/
def addX (d x1 y1 x2 y2 : K) : K := (x1 * y2 + x2 * y1) / dp d x1 y1 x2 y2
def addY (d x1 y1 x2 y2 : K) : K := (y1 * y2 + x1 * x2) / dm d x1 y1 x2 y2

/-- If `d x1 x2 y1 y2` is `1` or `-1` then `d` is a square. -/
theorem eps_square {d i : K} (hi : i * i = -1) (h2 : (2 : K) ≠ 0) {x1 y1 x2 y2 : K} (h1 : On d x1 y1) (h2' : On d x2 y2)
    (e : (d * x1 * x2 * y1 * y2) ^ 2 = 1) : ∃ r : K, r * r = d := by
  unfold On at h1 h2'
  have hi0 : i ≠ 0 := fun h => by rw [h, mul_zero] at hi; exact one_ne_zero (neg_eq_zero.1 hi.symm)
  have hx1 : x1 ≠ 0 := fun h => by simp [h] at e
  have hy1 : y1 ≠ 0 := fun h => by simp [h] at e
  have hx2 : x2 ≠ 0 := fun h => by simp [h] at e
  have hi2 : i ^ 2 = -1 := by rw [sq]; exact hi
  generalize hE : d * x1 * x2 * y1 * y2 = E at *
  -- `-d (i x1)^2 y1^2 (i x2 ± y2)^2 = (i x1 ∓ E y1)^2`
  have k1 : d * (x1 * y1 * (i * x2 + y2)) ^ 2 = (i * x1 + E * y1) ^ 2 := by
    linear_combination (d * x1 ^ 2 * y1 ^ 2 * x2 ^ 2 - x1 ^ 2) * hi2 + d * x1 ^ 2 * y1 ^ 2 * h2'
      + (d * x1 * x2 * y1 * y2 + E + 2 * i * x1 * y1) * hE + (1 - y1 ^ 2) * e - h1
  have k2 : d * (x1 * y1 * (i * x2 - y2)) ^ 2 = (i * x1 - E * y1) ^ 2 := by
    linear_combination (d * x1 ^ 2 * y1 ^ 2 * x2 ^ 2 - x1 ^ 2) * hi2 + d * x1 ^ 2 * y1 ^ 2 * h2'
      + (d * x1 * x2 * y1 * y2 + E - 2 * i * x1 * y1) * hE + (1 - y1 ^ 2) * e - h1
  by_cases ha : i * x2 + y2 = 0
  · have hb : i * x2 - y2 ≠ 0 := by
      intro hb
      have : 2 * (i * x2) = 0 := by linear_combination ha + hb
      rcases mul_eq_zero.1 this with h | h
      · exact h2 h
      · exact (mul_ne_zero hi0 hx2) h
    have hne : x1 * y1 * (i * x2 - y2) ≠ 0 := mul_ne_zero (mul_ne_zero hx1 hy1) hb
    refine ⟨(i * x1 - E * y1) / (x1 * y1 * (i * x2 - y2)), ?_⟩
    rw [div_mul_div_comm, div_eq_iff (mul_ne_zero hne hne)]
    linear_combination -k2
  · have hne : x1 * y1 * (i * x2 + y2) ≠ 0 := mul_ne_zero (mul_ne_zero hx1 hy1) ha
    refine ⟨(i * x1 + E * y1) / (x1 * y1 * (i * x2 + y2)), ?_⟩
    rw [div_mul_div_comm, div_eq_iff (mul_ne_zero hne hne)]
    linear_combination -k1

/-- Completeness: the denominators do not vanish. -/
theorem denoms {d i : K} (hi : i * i = -1) (h2 : (2 : K) ≠ 0) (hd : ∀ r : K, r * r ≠ d) {x1 y1 x2 y2 : K}
    (h1 : On d x1 y1) (h2' : On d x2 y2) : dp d x1 y1 x2 y2 ≠ 0 ∧ dm d x1 y1 x2 y2 ≠ 0 := by
  have key : (d * x1 * x2 * y1 * y2) ^ 2 ≠ 1 := fun e => by
    obtain ⟨r, hr⟩ := eps_square hi h2 h1 h2' e
    exact hd r hr
  constructor
  · intro h
    unfold dp at h
    exact key (by rw [show d * x1 * x2 * y1 * y2 = -1 by linear_combination h]; ring)
  · intro h
    unfold dm at h
    exact key (by rw [show d * x1 * x2 * y1 * y2 = 1 by linear_combination -h]; ring)

/-- Closure. -/
theorem add_on {d x1 y1 x2 y2 : K} (h1 : On d x1 y1) (h2 : On d x2 y2) (hp : dp d x1 y1 x2 y2 ≠ 0) (hm : dm d x1 y1 x2 y2 ≠ 0) :
    On d (addX d x1 y1 x2 y2) (addY d x1 y1 x2 y2) := by
  unfold On addX addY
  field_simp
  unfold On at h1 h2
  unfold dp dm
  linear_combination
    - (-x1^2*y1^2*x2^4*y2^4*d^3 + x1^2*x2^4*y2^4*d^2 + x1^2*x2^4*y2^2*d - x1^2*x2^2*y2^4*d - y1^2*x2^4*y2^4*d^2 - y1^2*x2^4*y2^2*d
    + y1^2*x2^2*y2^4*d + x2^4*y2^4*d^2 + 2*x2^4*y2^4*d + 2*x2^4*y2^2 - x2^4 - 2*x2^2*y2^4 + 2*x2^2*y2^2*d + 4*x2^2*y2^2 - y2^4) *
    h1 - (-x1^4*x2^2*y2^2*d - 2*x1^2*x2^2*y2^2*d - 2*x1^2*x2^2*y2^2 + x1^2*x2^2 - x1^2*y2^2 - y1^4*x2^2*y2^2*d +
    2*y1^2*x2^2*y2^2*d + 2*y1^2*x2^2*y2^2 - y1^2*x2^2 + y1^2*y2^2 - x2^2*y2^2*d - 2*x2^2*y2^2 + x2^2 - y2^2 - 1) * h2

theorem add_comm_x (d x1 y1 x2 y2 : K) : addX d x1 y1 x2 y2 = addX d x2 y2 x1 y1 := by
  unfold addX dp; congr 1 <;> ring

theorem add_comm_y (d x1 y1 x2 y2 : K) : addY d x1 y1 x2 y2 = addY d x2 y2 x1 y1 := by
  unfold addY dm; congr 1 <;> ring

/-- `x` of `(P1 + P2) + P3`, with denominators cleared. -/
theorem triple_x {d x1 y1 x2 y2 x3 y3 : K} (hp : dp d x1 y1 x2 y2 ≠ 0) (hm : dm d x1 y1 x2 y2 ≠ 0) :
    addX d (addX d x1 y1 x2 y2) (addY d x1 y1 x2 y2) x3 y3
      = ((x1 * y2 + x2 * y1) * dm d x1 y1 x2 y2 * y3 + (y1 * y2 + x1 * x2) * dp d x1 y1 x2 y2 * x3)
        / (dp d x1 y1 x2 y2 * dm d x1 y1 x2 y2 + d * (x1 * y2 + x2 * y1) * (y1 * y2 + x1 * x2) * x3 * y3) := by
  have e : dp d (addX d x1 y1 x2 y2) (addY d x1 y1 x2 y2) x3 y3
      = (dp d x1 y1 x2 y2 * dm d x1 y1 x2 y2 + d * (x1 * y2 + x2 * y1) * (y1 * y2 + x1 * x2) * x3 * y3)
        / (dp d x1 y1 x2 y2 * dm d x1 y1 x2 y2) := by
    rw [eq_div_iff (mul_ne_zero hp hm)]
    conv_lhs => unfold dp addX addY
    field_simp
    unfold dp dm
    ring
  unfold addX at e ⊢
  rw [e, div_div_eq_mul_div]
  congr 1
  unfold addY
  field_simp

/-- `y` of `(P1 + P2) + P3`, with denominators cleared. -/
theorem triple_y {d x1 y1 x2 y2 x3 y3 : K} (hp : dp d x1 y1 x2 y2 ≠ 0) (hm : dm d x1 y1 x2 y2 ≠ 0) :
    addY d (addX d x1 y1 x2 y2) (addY d x1 y1 x2 y2) x3 y3
      = ((y1 * y2 + x1 * x2) * dp d x1 y1 x2 y2 * y3 + (x1 * y2 + x2 * y1) * dm d x1 y1 x2 y2 * x3)
        / (dp d x1 y1 x2 y2 * dm d x1 y1 x2 y2 - d * (x1 * y2 + x2 * y1) * (y1 * y2 + x1 * x2) * x3 * y3) := by
  have e : dm d (addX d x1 y1 x2 y2) (addY d x1 y1 x2 y2) x3 y3
      = (dp d x1 y1 x2 y2 * dm d x1 y1 x2 y2 - d * (x1 * y2 + x2 * y1) * (y1 * y2 + x1 * x2) * x3 * y3)
        / (dp d x1 y1 x2 y2 * dm d x1 y1 x2 y2) := by
    rw [eq_div_iff (mul_ne_zero hp hm)]
    conv_lhs => unfold dm addX addY
    field_simp
    unfold dp dm
    ring
  unfold addY at e ⊢
  rw [e, div_div_eq_mul_div]
  congr 1
  unfold addX
  field_simp

theorem assoc_poly_x {d x1 y1 x2 y2 x3 y3 : K} (h1 : On d x1 y1) (h2 : On d x2 y2) (h3 : On d x3 y3) :
    ((x1 * y2 + x2 * y1) * dm d x1 y1 x2 y2 * y3 + (y1 * y2 + x1 * x2) * dp d x1 y1 x2 y2 * x3)
      * (dp d x2 y2 x3 y3 * dm d x2 y2 x3 y3 + d * (x2 * y3 + x3 * y2) * (y2 * y3 + x2 * x3) * x1 * y1)
    = ((x2 * y3 + x3 * y2) * dm d x2 y2 x3 y3 * y1 + (y2 * y3 + x2 * x3) * dp d x2 y2 x3 y3 * x1)
      * (dp d x1 y1 x2 y2 * dm d x1 y1 x2 y2 + d * (x1 * y2 + x2 * y1) * (y1 * y2 + x1 * x2) * x3 * y3) := by
  unfold On at h1 h2 h3
  unfold dp dm
  linear_combination
    - (x1*x2^4*y2^3*x3^2*y3*d^2 + x1*x2^4*y2*x3^2*y3*d + x1*x2^3*y2^4*x3*y3^2*d^2 + x1*x2^3*y2^2*x3^3*d + x1*x2^3*y2^2*x3*d -
    x1*x2^2*y2^3*y3^3*d + x1*x2^2*y2^3*y3*d - x1*x2*y2^4*x3*y3^2*d - y1*x2^4*y2^3*x3*y3^2*d^2 - y1*x2^4*y2*x3*y3^2*d -
    y1*x2^3*y2^4*x3^2*y3*d^2 - y1*x2^3*y2^2*y3^3*d + y1*x2^3*y2^2*y3*d + y1*x2^2*y2^3*x3^3*d + y1*x2^2*y2^3*x3*d +
    y1*x2*y2^4*x3^2*y3*d) * h1 - (-x1^3*x2^2*y2*x3^2*y3*d - x1^3*x2*y2^2*x3*y3^2*d - x1^3*x2*x3^3*y3^2*d - x1^3*x2*x3^3 +
    x1^3*x2*x3*y3^2 - x1^3*x2*x3 - x1^3*y2*x3^2*y3^3*d - x1^3*y2*x3^2*y3 + x1^3*y2*y3^3 - x1^3*y2*y3 -
    x1^2*y1*x2^2*y2*x3^3*y3^2*d^2 + x1^2*y1*x2^2*y2*x3*y3^2*d + x1^2*y1*x2*y2^2*x3^2*y3^3*d^2 + x1^2*y1*x2*y2^2*x3^2*y3*d -
    x1^2*y1*x2*x3^2*y3^3*d - x1^2*y1*x2*x3^2*y3 + x1^2*y1*x2*y3^3 - x1^2*y1*x2*y3 - x1^2*y1*y2*x3^3*y3^2*d - x1^2*y1*y2*x3^3 +
    x1^2*y1*y2*x3*y3^2 - x1^2*y1*y2*x3 + x1*y1^2*x2^2*y2*x3^2*y3^3*d^2 + x1*y1^2*x2^2*y2*x3^2*y3*d - x1*y1^2*x2*y2^2*x3^3*y3^2*d^2
    + x1*y1^2*x2*y2^2*x3*y3^2*d + x1*y1^2*x2*x3^3*y3^2*d + x1*y1^2*x2*x3^3 - x1*y1^2*x2*x3*y3^2 + x1*y1^2*x2*x3 +
    x1*y1^2*y2*x3^2*y3^3*d + x1*y1^2*y2*x3^2*y3 - x1*y1^2*y2*y3^3 + x1*y1^2*y2*y3 - x1*x2^2*y2*x3^2*y3*d - x1*x2*y2^2*x3*y3^2*d -
    x1*x2*x3^3*y3^2*d - x1*x2*x3^3 + x1*x2*x3*y3^2 - x1*x2*x3 - x1*y2*x3^2*y3^3*d - x1*y2*x3^2*y3 + x1*y2*y3^3 - x1*y2*y3 -
    y1^3*x2^2*y2*x3*y3^2*d - y1^3*x2*y2^2*x3^2*y3*d + y1^3*x2*x3^2*y3^3*d + y1^3*x2*x3^2*y3 - y1^3*x2*y3^3 + y1^3*x2*y3 +
    y1^3*y2*x3^3*y3^2*d + y1^3*y2*x3^3 - y1^3*y2*x3*y3^2 + y1^3*y2*x3 + y1*x2^2*y2*x3*y3^2*d + y1*x2*y2^2*x3^2*y3*d -
    y1*x2*x3^2*y3^3*d - y1*x2*x3^2*y3 + y1*x2*y3^3 - y1*x2*y3 - y1*y2*x3^3*y3^2*d - y1*y2*x3^3 + y1*y2*x3*y3^2 - y1*y2*x3) * h2 -
    (x1^3*x2^3*x3 + x1^3*x2^2*y2*y3 - x1^3*x2*y2^2*x3 + x1^3*x2*x3 - x1^3*y2^3*y3 + x1^3*y2*y3 + x1^2*y1*x2^3*y3 +
    x1^2*y1*x2^2*y2*x3*d + x1^2*y1*x2^2*y2*x3 - x1^2*y1*x2*y2^2*y3*d - x1^2*y1*x2*y2^2*y3 + x1^2*y1*x2*y3 - x1^2*y1*y2^3*x3 +
    x1^2*y1*y2*x3 - x1*y1^2*x2^3*x3 - x1*y1^2*x2^2*y2*y3*d - x1*y1^2*x2^2*y2*y3 + x1*y1^2*x2*y2^2*x3*d + x1*y1^2*x2*y2^2*x3 -
    x1*y1^2*x2*x3 + x1*y1^2*y2^3*y3 - x1*y1^2*y2*y3 + x1*x2^3*x3 + x1*x2^2*y2*y3 - x1*x2*y2^2*x3 + x1*x2*x3 - x1*y2^3*y3 +
    x1*y2*y3 - y1^3*x2^3*y3 - y1^3*x2^2*y2*x3 + y1^3*x2*y2^2*y3 - y1^3*x2*y3 + y1^3*y2^3*x3 - y1^3*y2*x3 + y1*x2^3*y3 +
    y1*x2^2*y2*x3 - y1*x2*y2^2*y3 + y1*x2*y3 - y1*y2^3*x3 + y1*y2*x3) * h3

theorem assoc_poly_y {d x1 y1 x2 y2 x3 y3 : K} (h1 : On d x1 y1) (h2 : On d x2 y2) (h3 : On d x3 y3) :
    ((y1 * y2 + x1 * x2) * dp d x1 y1 x2 y2 * y3 + (x1 * y2 + x2 * y1) * dm d x1 y1 x2 y2 * x3)
      * (dp d x2 y2 x3 y3 * dm d x2 y2 x3 y3 - d * (x2 * y3 + x3 * y2) * (y2 * y3 + x2 * x3) * x1 * y1)
    = ((y2 * y3 + x2 * x3) * dp d x2 y2 x3 y3 * y1 + (x2 * y3 + x3 * y2) * dm d x2 y2 x3 y3 * x1)
      * (dp d x1 y1 x2 y2 * dm d x1 y1 x2 y2 - d * (x1 * y2 + x2 * y1) * (y1 * y2 + x1 * x2) * x3 * y3) := by
  unfold On at h1 h2 h3
  unfold dp dm
  linear_combination
    - (-x1*x2^4*y2^3*x3*y3^2*d^2 - x1*x2^4*y2*x3*y3^2*d - x1*x2^3*y2^4*x3^2*y3*d^2 - x1*x2^3*y2^2*y3^3*d + x1*x2^3*y2^2*y3*d +
    x1*x2^2*y2^3*x3^3*d + x1*x2^2*y2^3*x3*d + x1*x2*y2^4*x3^2*y3*d + y1*x2^4*y2^3*x3^2*y3*d^2 + y1*x2^4*y2*x3^2*y3*d +
    y1*x2^3*y2^4*x3*y3^2*d^2 + y1*x2^3*y2^2*x3^3*d + y1*x2^3*y2^2*x3*d - y1*x2^2*y2^3*y3^3*d + y1*x2^2*y2^3*y3*d -
    y1*x2*y2^4*x3*y3^2*d) * h1 - (x1^3*x2^2*y2*x3*y3^2*d + x1^3*x2*y2^2*x3^2*y3*d - x1^3*x2*x3^2*y3^3*d - x1^3*x2*x3^2*y3 +
    x1^3*x2*y3^3 - x1^3*x2*y3 - x1^3*y2*x3^3*y3^2*d - x1^3*y2*x3^3 + x1^3*y2*x3*y3^2 - x1^3*y2*x3 - x1^2*y1*x2^2*y2*x3^2*y3^3*d^2
    - x1^2*y1*x2^2*y2*x3^2*y3*d + x1^2*y1*x2*y2^2*x3^3*y3^2*d^2 - x1^2*y1*x2*y2^2*x3*y3^2*d - x1^2*y1*x2*x3^3*y3^2*d -
    x1^2*y1*x2*x3^3 + x1^2*y1*x2*x3*y3^2 - x1^2*y1*x2*x3 - x1^2*y1*y2*x3^2*y3^3*d - x1^2*y1*y2*x3^2*y3 + x1^2*y1*y2*y3^3 -
    x1^2*y1*y2*y3 + x1*y1^2*x2^2*y2*x3^3*y3^2*d^2 - x1*y1^2*x2^2*y2*x3*y3^2*d - x1*y1^2*x2*y2^2*x3^2*y3^3*d^2 -
    x1*y1^2*x2*y2^2*x3^2*y3*d + x1*y1^2*x2*x3^2*y3^3*d + x1*y1^2*x2*x3^2*y3 - x1*y1^2*x2*y3^3 + x1*y1^2*x2*y3 +
    x1*y1^2*y2*x3^3*y3^2*d + x1*y1^2*y2*x3^3 - x1*y1^2*y2*x3*y3^2 + x1*y1^2*y2*x3 + x1*x2^2*y2*x3*y3^2*d + x1*x2*y2^2*x3^2*y3*d -
    x1*x2*x3^2*y3^3*d - x1*x2*x3^2*y3 + x1*x2*y3^3 - x1*x2*y3 - x1*y2*x3^3*y3^2*d - x1*y2*x3^3 + x1*y2*x3*y3^2 - x1*y2*x3 +
    y1^3*x2^2*y2*x3^2*y3*d + y1^3*x2*y2^2*x3*y3^2*d + y1^3*x2*x3^3*y3^2*d + y1^3*x2*x3^3 - y1^3*x2*x3*y3^2 + y1^3*x2*x3 +
    y1^3*y2*x3^2*y3^3*d + y1^3*y2*x3^2*y3 - y1^3*y2*y3^3 + y1^3*y2*y3 - y1*x2^2*y2*x3^2*y3*d - y1*x2*y2^2*x3*y3^2*d -
    y1*x2*x3^3*y3^2*d - y1*x2*x3^3 + y1*x2*x3*y3^2 - y1*x2*x3 - y1*y2*x3^2*y3^3*d - y1*y2*x3^2*y3 + y1*y2*y3^3 - y1*y2*y3) * h2 -
    (x1^3*x2^3*y3 + x1^3*x2^2*y2*x3 - x1^3*x2*y2^2*y3 + x1^3*x2*y3 - x1^3*y2^3*x3 + x1^3*y2*x3 + x1^2*y1*x2^3*x3 +
    x1^2*y1*x2^2*y2*y3*d + x1^2*y1*x2^2*y2*y3 - x1^2*y1*x2*y2^2*x3*d - x1^2*y1*x2*y2^2*x3 + x1^2*y1*x2*x3 - x1^2*y1*y2^3*y3 +
    x1^2*y1*y2*y3 - x1*y1^2*x2^3*y3 - x1*y1^2*x2^2*y2*x3*d - x1*y1^2*x2^2*y2*x3 + x1*y1^2*x2*y2^2*y3*d + x1*y1^2*x2*y2^2*y3 -
    x1*y1^2*x2*y3 + x1*y1^2*y2^3*x3 - x1*y1^2*y2*x3 + x1*x2^3*y3 + x1*x2^2*y2*x3 - x1*x2*y2^2*y3 + x1*x2*y3 - x1*y2^3*x3 +
    x1*y2*x3 - y1^3*x2^3*x3 - y1^3*x2^2*y2*y3 + y1^3*x2*y2^2*x3 - y1^3*x2*x3 + y1^3*y2^3*y3 - y1^3*y2*y3 + y1*x2^3*x3 +
    y1*x2^2*y2*y3 - y1*x2*y2^2*x3 + y1*x2*x3 - y1*y2^3*y3 + y1*y2*y3) * h3

end Cardano.Curve
