import Verif.Ed25519.Encoding
import Verif.Ed25519.SlideProof
import Verif.Props.Field
import Verif.Props.Scalar
/-!
# Properties C41, C42, C51, C52: the curve group, its encoding, tables and double scalar multiplication

`Pt` (in `Ed25519/Group.lean`) is the type of pairs `(x, y)` of field elements with `-x^2 + y^2 = 1 + d x^2 y^2`; it is a commutative
group under the addition law of RFC 8032. It does not refer to the model of the code. The first theorems below spell out what it is.
-/
set_option autoImplicit false

namespace Cardano.Props
open Ed

/-! ### The group -/

/-- The type of field elements is that of the integers modulo the prime `P`. -/
theorem field_is_mod_P : F = ZMod P := by rw [← P_eq]

/-- A pair of coordinates is a point exactly if it satisfies the curve equation of RFC 8032, section 5.1, with `d = -121665/121666`. -/
theorem C41_points (x y : F) : (∃ A : Pt, A.x = x ∧ A.y = y) ↔ -x ^ 2 + y ^ 2 = 1 + -121665 / 121666 * x ^ 2 * y ^ 2 := by
  have h0 : (121666 : F) ≠ 0 := by
    have := natCast_ne_zero (a := 121666) (by decide +kernel)
    exact_mod_cast this
  have hd : (-121665 / 121666 : F) = cd := by rw [div_eq_iff h0, cd_def]
  rw [hd]
  constructor
  · rintro ⟨A, rfl, rfl⟩
    have := A.on
    unfold Curve.On at this
    linear_combination this
  · intro h
    exact ⟨⟨x, y, by unfold Curve.On; linear_combination h⟩, rfl, rfl⟩

/-- Addition of points is the addition law of RFC 8032, section 5.1.4; its denominators never vanish. Neutral element and inverses. -/
theorem C41_group_law (A A' : Pt) :
    let k : F := -121665 / 121666 * A.x * A'.x * A.y * A'.y
    1 + k ≠ 0 ∧ 1 - k ≠ 0 ∧
    (A + A').x = (A.x * A'.y + A'.x * A.y) / (1 + k) ∧ (A + A').y = (A.y * A'.y + A.x * A'.x) / (1 - k) ∧
    (0 : Pt).x = 0 ∧ (0 : Pt).y = 1 ∧ (-A).x = -A.x ∧ (-A).y = A.y := by
  have h0 : (121666 : F) ≠ 0 := by
    have := natCast_ne_zero (a := 121666) (by decide +kernel)
    exact_mod_cast this
  have hd : (-121665 / 121666 : F) = cd := by rw [div_eq_iff h0, cd_def]
  rw [hd]
  obtain ⟨d1, d2⟩ := Pt.den A A'
  have e1 : Curve.dp cd A.x A.y A'.x A'.y = 1 + cd * A.x * A'.x * A.y * A'.y := by unfold Curve.dp; ring
  have e2 : Curve.dm cd A.x A.y A'.x A'.y = 1 - cd * A.x * A'.x * A.y * A'.y := by unfold Curve.dm; ring
  rw [e1] at d1
  rw [e2] at d2
  refine ⟨d1, d2, ?_, ?_, rfl, rfl, rfl, rfl⟩
  · rw [Pt.add_x, ← e1]; rfl
  · rw [Pt.add_y, ← e2]; rfl

attribute [local irreducible] FeMul FeSquare FeSquare2 FeAdd FeSub FeNeg FeInvert fePow22523 FeToBytes FeFromBytes Bd fz

/-! ### Representations -/

/-- Ten limbs of absolute value at most `n` times `1.1*2^25, 1.1*2^24, ...`, rounded down. -/
structure Sized (n : Nat) (x : List Int) : Prop where
  size : x.length = 10
  bound : ∀ i, i < 10 → |x.getD i 0| ≤ (n * (11 * 2 ^ (25 - i % 2) / 10) : Nat)

theorem sized_iff (n : Nat) (x : List Int) : Sized n x ↔ Bd n x := by
  constructor
  · intro h
    obtain ⟨f0, f1, f2, f3, f4, f5, f6, f7, f8, f9, rfl⟩ := len10 h.size
    rw [Bd_iff]
    have g : ∀ i, i < 10 → _ := h.bound
    simp only [Int.abs_eq_natAbs, Int.ofNat_le] at g
    exact ⟨g 0 (by decide), g 1 (by decide), g 2 (by decide), g 3 (by decide), g 4 (by decide), g 5 (by decide), g 6 (by decide),
      g 7 (by decide), g 8 (by decide), g 9 (by decide)⟩
  · intro h
    refine ⟨h.length, ?_⟩
    obtain ⟨f0, f1, f2, f3, f4, f5, f6, f7, f8, f9, rfl⟩ := len10 h.length
    rw [Bd_iff] at h
    obtain ⟨b0, b1, b2, b3, b4, b5, b6, b7, b8, b9⟩ := h
    intro i hi
    rw [Int.abs_eq_natAbs, Int.ofNat_le]
    match i, hi with
    | 0, _ => exact b0
    | 1, _ => exact b1
    | 2, _ => exact b2
    | 3, _ => exact b3
    | 4, _ => exact b4
    | 5, _ => exact b5
    | 6, _ => exact b6
    | 7, _ => exact b7
    | 8, _ => exact b8
    | 9, _ => exact b9

/-- The field element of ten limbs. -/
def elt (x : List Int) : F := (value x : F)

theorem elt_eq {n : Nat} {x : List Int} (h : Bd n x) : elt x = fz x := by
  unfold elt
  rw [value_eq x h.length]
  unfold fz; rfl

/-- `(X : Y : Z)` with `x = X/Z`, `y = Y/Z`. -/
structure IsProj (p : Proj) (A : Pt) : Prop where
  sizes : Sized 2 p.X ∧ Sized 1 p.Y ∧ Sized 1 p.Z
  z : elt p.Z ≠ 0
  x : A.x = elt p.X / elt p.Z
  y : A.y = elt p.Y / elt p.Z

/-- `(X : Y : Z : T)` with `x = X/Z`, `y = Y/Z`, `XY = ZT`. -/
structure IsExt (p : Ext) (A : Pt) : Prop where
  sizes : Sized 2 p.X ∧ Sized 1 p.Y ∧ Sized 1 p.Z ∧ Sized 1 p.T
  z : elt p.Z ≠ 0
  x : A.x = elt p.X / elt p.Z
  y : A.y = elt p.Y / elt p.Z
  t : elt p.X * elt p.Y = elt p.Z * elt p.T

/-- `((X : Z), (Y : T))` with `x = X/Z`, `y = Y/T`. -/
structure IsCompl (p : Compl) (A : Pt) : Prop where
  sizes : Sized 3 p.X ∧ Sized 3 p.Y ∧ Sized 3 p.Z ∧ Sized 3 p.T
  z : elt p.Z ≠ 0
  t : elt p.T ≠ 0
  x : A.x = elt p.X / elt p.Z
  y : A.y = elt p.Y / elt p.T

/-- `(y + x, y - x, 2 d x y)`. -/
structure IsPreComp (p : PreComp) (A : Pt) : Prop where
  sizes : Sized 1 p.yPlusX ∧ Sized 1 p.yMinusX ∧ Sized 1 p.xy2d
  plus : elt p.yPlusX = A.y + A.x
  minus : elt p.yMinusX = A.y - A.x
  xy2d : elt p.xy2d * 121666 = 2 * -121665 * A.x * A.y

theorem isProj_iff (p : Proj) (A : Pt) : IsProj p A ↔ ProjRep p A := by
  constructor
  · rintro ⟨⟨h1, h2, h3⟩, z, x, y⟩
    rw [sized_iff] at h1 h2 h3
    rw [elt_eq h3] at z x y
    rw [elt_eq h1] at x
    rw [elt_eq h2] at y
    exact ⟨h1, h2, h3, z, by rw [x, div_mul_cancel₀ _ z], by rw [y, div_mul_cancel₀ _ z]⟩
  · rintro ⟨h1, h2, h3, z, x, y⟩
    refine ⟨⟨(sized_iff _ _).2 h1, (sized_iff _ _).2 h2, (sized_iff _ _).2 h3⟩, ?_, ?_, ?_⟩
    · rw [elt_eq h3]; exact z
    · rw [elt_eq h3, elt_eq h1, x, mul_div_cancel_right₀ _ z]
    · rw [elt_eq h3, elt_eq h2, y, mul_div_cancel_right₀ _ z]

theorem isExt_iff (p : Ext) (A : Pt) : IsExt p A ↔ ExtRep p A := by
  constructor
  · rintro ⟨⟨h1, h2, h3, h4⟩, z, x, y, t⟩
    rw [sized_iff] at h1 h2 h3 h4
    rw [elt_eq h1, elt_eq h2, elt_eq h3, elt_eq h4] at t
    rw [elt_eq h3] at z x y
    rw [elt_eq h1] at x
    rw [elt_eq h2] at y
    have x' : fz p.X = A.x * fz p.Z := by rw [x, div_mul_cancel₀ _ z]
    have y' : fz p.Y = A.y * fz p.Z := by rw [y, div_mul_cancel₀ _ z]
    refine ⟨h1, h2, h3, h4, z, x', y', mul_left_cancel₀ z ?_⟩
    rw [← t, x', y']; ring
  · rintro ⟨h1, h2, h3, h4, z, x, y, t⟩
    refine ⟨⟨(sized_iff _ _).2 h1, (sized_iff _ _).2 h2, (sized_iff _ _).2 h3, (sized_iff _ _).2 h4⟩, ?_, ?_, ?_, ?_⟩
    · rw [elt_eq h3]; exact z
    · rw [elt_eq h3, elt_eq h1, x, mul_div_cancel_right₀ _ z]
    · rw [elt_eq h3, elt_eq h2, y, mul_div_cancel_right₀ _ z]
    · rw [elt_eq h3, elt_eq h2, elt_eq h1, elt_eq h4, x, y, t]; ring

theorem isCompl_iff (p : Compl) (A : Pt) : IsCompl p A ↔ ComplRep p A := by
  constructor
  · rintro ⟨⟨h1, h2, h3, h4⟩, z, t, x, y⟩
    rw [sized_iff] at h1 h2 h3 h4
    rw [elt_eq h3] at z x
    rw [elt_eq h4] at t y
    rw [elt_eq h1] at x
    rw [elt_eq h2] at y
    exact ⟨h1, h2, h3, h4, z, t, by rw [x, div_mul_cancel₀ _ z], by rw [y, div_mul_cancel₀ _ t]⟩
  · rintro ⟨h1, h2, h3, h4, z, t, x, y⟩
    refine ⟨⟨(sized_iff _ _).2 h1, (sized_iff _ _).2 h2, (sized_iff _ _).2 h3, (sized_iff _ _).2 h4⟩, ?_, ?_, ?_, ?_⟩
    · rw [elt_eq h3]; exact z
    · rw [elt_eq h4]; exact t
    · rw [elt_eq h3, elt_eq h1, x, mul_div_cancel_right₀ _ z]
    · rw [elt_eq h4, elt_eq h2, y, mul_div_cancel_right₀ _ t]

theorem isPreComp_iff (p : PreComp) (A : Pt) : IsPreComp p A ↔ PreCompRep p A := by
  have h0 : (121666 : F) ≠ 0 := by
    have := natCast_ne_zero (a := 121666) (by decide +kernel)
    exact_mod_cast this
  have hd := cd_def
  constructor
  · rintro ⟨⟨h1, h2, h3⟩, a, b, c⟩
    rw [sized_iff] at h1 h2 h3
    rw [elt_eq h1] at a
    rw [elt_eq h2] at b
    rw [elt_eq h3] at c
    refine ⟨h1, h2, h3, a, b, mul_right_cancel₀ h0 ?_⟩
    linear_combination c - 2 * A.x * A.y * hd
  · rintro ⟨h1, h2, h3, a, b, c⟩
    refine ⟨⟨(sized_iff _ _).2 h1, (sized_iff _ _).2 h2, (sized_iff _ _).2 h3⟩, ?_, ?_, ?_⟩
    · rw [elt_eq h1, a]
    · rw [elt_eq h2, b]
    · rw [elt_eq h3, c]; linear_combination 2 * A.x * A.y * hd

/-- Every point has an extended representation, so the theorems below are about all points. -/
theorem every_point_represented (A : Pt) : ∃ p, IsExt p A := by
  obtain ⟨e, _, h⟩ := FromBytes_enc A
  exact ⟨e, (isExt_iff _ _).2 h⟩

/-- A representation determines its point. -/
theorem representation_unique {p : Ext} {A A' : Pt} (h : IsExt p A) (h' : IsExt p A') : A = A' :=
  Pt.ext (h.x.trans h'.x.symm) (h.y.trans h'.y.symm)

/-! ### C41 -/

/-- **C41** (addition and subtraction of arbitrary points, through `ToCached`). No exception for equal, opposite or neutral points. -/
theorem C41_add_sub (p q : Ext) (A A' : Pt) (h : IsExt p A) (h' : IsExt q A') :
    IsCompl (geAdd p q.ToCached) (A + A') ∧ IsCompl (geSub p q.ToCached) (A - A') := by
  rw [isExt_iff] at h h'
  exact ⟨(isCompl_iff _ _).2 (geAdd_rep h h'.toCached), (isCompl_iff _ _).2 (geSub_rep h h'.toCached)⟩

/-- **C41** (addition and subtraction of table entries). -/
theorem C41_mixed (p : Ext) (q : PreComp) (A A' : Pt) (h : IsExt p A) (h' : IsPreComp q A') :
    IsCompl (geMixedAdd p q) (A + A') ∧ IsCompl (geMixedSub p q) (A - A') := by
  rw [isExt_iff] at h
  rw [isPreComp_iff] at h'
  exact ⟨(isCompl_iff _ _).2 (geMixedAdd_rep h h'), (isCompl_iff _ _).2 (geMixedSub_rep h h')⟩

/-- **C41** (doubling). -/
theorem C41_double (p : Proj) (q : Ext) (A A' : Pt) (h : IsProj p A) (h' : IsExt q A') :
    IsCompl p.Double (2 • A) ∧ IsCompl q.Double (2 • A') := by
  rw [isProj_iff] at h
  rw [isExt_iff] at h'
  rw [two_nsmul, two_nsmul]
  exact ⟨(isCompl_iff _ _).2 (Proj.double_rep h), (isCompl_iff _ _).2 (Ext.double_rep h')⟩

/-- **C41** (conversions and neutral elements). -/
theorem C41_convert (p : Compl) (q : Ext) (A A' : Pt) (h : IsCompl p A) (h' : IsExt q A') :
    IsProj p.ToProjective A ∧ IsExt p.ToExtended A ∧ IsProj q.ToProjective A' ∧
    IsProj Proj.Zero 0 ∧ IsExt Ext.Zero 0 ∧ IsPreComp PreComp.Zero 0 := by
  rw [isCompl_iff] at h
  rw [isExt_iff] at h'
  exact ⟨(isProj_iff _ _).2 h.toProjective, (isExt_iff _ _).2 h.toExtended, (isProj_iff _ _).2 h'.toProjective, (isProj_iff _ _).2 zero_proj,
    (isExt_iff _ _).2 zero_ext, (isPreComp_iff _ _).2 zero_preComp⟩

/-- The hypotheses are met by any two points: chaining the operations. -/
example (A A' : Pt) : ∃ p q : Ext, IsExt p A ∧ IsExt q A' ∧ IsExt (geAdd p q.ToCached).ToExtended (A + A') ∧
    IsExt (geSub p p.ToCached).ToExtended 0 := by
  obtain ⟨p, hp⟩ := every_point_represented A
  obtain ⟨q, hq⟩ := every_point_represented A'
  refine ⟨p, q, hp, hq, (C41_convert _ _ _ _ (C41_add_sub p q A A' hp hq).1 hp).2.1, ?_⟩
  have := (C41_convert _ _ _ _ (C41_add_sub p p A A hp hp).2 hp).2.1
  rwa [sub_self] at this

/-! ### C42 -/

/-- The base point of RFC 8032: `y = 4/5` and `x` even ("positive"). -/
theorem C42_base_point : B.y = 4 / 5 ∧ B.x.val % 2 = 0 ∧ ∀ A : Pt, A.y = 4 / 5 → A.x.val % 2 = 0 → A = B := by
  have h5 : (5 : F) ≠ 0 := by
    have := natCast_ne_zero (a := 5) (by decide +kernel)
    exact_mod_cast this
  have hy : B.y = 4 / 5 := by
    rw [eq_div_iff h5]
    have : ((bY * 5 : Nat) : F) = ((4 : Nat) : F) := natCast_eq_of_mod (by decide +kernel)
    push_cast at this
    exact this
  have hx : B.x.val % 2 = 0 := by
    show ((bX : Nat) : F).val % 2 = 0
    rw [ZMod.val_natCast]
    decide +kernel
  refine ⟨hy, hx, fun A h1 h2 => enc_inj ?_⟩
  unfold enc
  rw [h1, hy, h2, hx]

/-- **C42** (order). The base point has order `L`: multiples coincide exactly when the scalars agree modulo `L`. -/
theorem C42_order : addOrderOf B = L ∧ ∀ m n : Nat, m • B = n • B ↔ m % L = n % L := by
  rw [← L_eq]
  exact ⟨addOrder_B, nsmul_B_eq_iff⟩

/-- **C42** (`base`). 32 rows of 8 entries; entry `(i, j)` is `(j + 1) 256^i B`. -/
theorem C42_base : base.length = 32 ∧ (∀ r ∈ base, r.length = 8) ∧
    ∀ i j r e, base[i]? = some r → r[j]? = some e → IsPreComp e (((j + 1) * 256 ^ i) • B) := by
  refine ⟨base_length, fun r hr => ?_, fun i j r e hr he => (isPreComp_iff _ _).2 (base_rep hr he)⟩
  obtain ⟨i, hi⟩ := List.getElem?_of_mem hr
  exact (rowsOk_rep base base_ok bN_rep i r hi).1

/-- **C42** (`bi`). 8 entries; entry `j` is `(2 j + 1) B`. -/
theorem C42_bi : bi.length = 8 ∧ ∀ j e, bi[j]? = some e → IsPreComp e ((2 * j + 1) • B) :=
  ⟨rfl, fun _ _ he => (isPreComp_iff _ _).2 (bi_rep he)⟩

/-- The last entry. -/
example : ∃ r e, base[31]? = some r ∧ r[7]? = some e ∧ IsPreComp e ((8 * 256 ^ 31) • B) := by
  obtain ⟨r, hr, hl⟩ := base_row (i := 31) (by decide)
  exact ⟨r, r[7], hr, List.getElem?_eq_getElem (by omega), C42_base.2.2 31 7 _ _ hr (List.getElem?_eq_getElem (by omega))⟩

/-! ### C51 -/

/-- The encoding of RFC 8032, section 5.1.2: 32 bytes, the number `y` with the parity of `x` in the top bit. -/
structure Encodes (s : Bytes) (A : Pt) : Prop where
  size : s.length = 32
  value : leNat s = A.y.val + 2 ^ 255 * (A.x.val % 2)

theorem encodes_iff (s : Bytes) (A : Pt) : Encodes s A ↔ s = enc A :=
  ⟨fun h => leNat_inj (h.size.trans (enc_length A).symm) (h.value.trans (leNat_enc A).symm), fun h => h ▸ ⟨enc_length A, leNat_enc A⟩⟩

/-- Every point has exactly one encoding, and an encoding determines the point. -/
theorem C51_encoding_unique (A : Pt) : (∃! s, Encodes s A) ∧ ∀ s A', Encodes s A → Encodes s A' → A = A' := by
  refine ⟨⟨enc A, (encodes_iff _ _).2 rfl, fun s h => (encodes_iff _ _).1 h⟩, fun s A' h h' => ?_⟩
  rw [encodes_iff] at h h'
  exact enc_inj (h.symm.trans h')

/-- **C51** (`ToBytes`). All representations of a point are written as its encoding. -/
theorem C51_toBytes (p : Ext) (q : Proj) (A A' : Pt) (h : IsExt p A) (h' : IsProj q A') : Encodes p.ToBytes A ∧ Encodes q.ToBytes A' := by
  rw [isExt_iff] at h
  rw [isProj_iff] at h'
  exact ⟨(encodes_iff _ _).2 (Ext.toBytes_eq h), (encodes_iff _ _).2 (Proj.toBytes_eq h')⟩

/-- **C51** (acceptance). A 32-byte string is accepted exactly if the number of its lower 255 bits, modulo `P`, is the second coordinate of
a point. -/
theorem C51_accepts (s : Bytes) (hs : s.length = 32) :
    (∃ p, Ext.FromBytes s = some p) ↔ ∃ A : Pt, A.y = ((leNat s % 2 ^ 255 : Nat) : F) := by
  rcases FromBytes_spec hs with ⟨e, A, h1, -, h3, -⟩ | ⟨h1, h2⟩
  · exact ⟨fun _ => ⟨A, h3⟩, fun _ => ⟨e, h1⟩⟩
  · rw [h1]
    exact ⟨fun ⟨p, hp⟩ => by simp at hp, fun ⟨A, hA⟩ => absurd hA (h2 A)⟩

/-- **C51** (result). What is returned represents a point with that second coordinate, whose first coordinate has the requested parity
unless it is zero. -/
theorem C51_result (s : Bytes) (hs : s.length = 32) (p : Ext) (h : Ext.FromBytes s = some p) :
    ∃ A : Pt, IsExt p A ∧ A.y = ((leNat s % 2 ^ 255 : Nat) : F) ∧ (A.x ≠ 0 → A.x.val % 2 = leNat s / 2 ^ 255) := by
  rcases FromBytes_spec hs with ⟨e, A, h1, h2, h3, h4⟩ | ⟨h1, _⟩
  · rw [h1] at h
    injection h with h
    subst h
    exact ⟨A, (isExt_iff _ _).2 h2, h3, h4⟩
  · rw [h1] at h; simp at h

/-- **C51** (round trip). The encoding of any point is accepted and gives back that point. -/
theorem C51_roundtrip (s : Bytes) (A : Pt) (h : Encodes s A) : ∃ p, Ext.FromBytes s = some p ∧ IsExt p A := by
  rw [encodes_iff] at h
  subst h
  obtain ⟨e, h1, h2⟩ := FromBytes_enc A
  exact ⟨e, h1, (isExt_iff _ _).2 h2⟩

/-- Strings that are not encodings are accepted as well, unlike in RFC 8032, section 5.1.3: `y = 1` with the sign bit set, and
`y = P + 1`. Both decode to the neutral element. -/
theorem C51_accepts_nonencodings : ∀ s ∈ [leBytes 32 (1 + 2 ^ 255), leBytes 32 (P + 1)],
    (∃ p, Ext.FromBytes s = some p ∧ IsExt p 0) ∧ ¬ ∃ A, Encodes s A := by
  have key : ∀ s : Bytes, s.length = 32 → ((leNat s % 2 ^ 255 : Nat) : F) = 1 → leNat s ≠ 1 →
      (∃ p, Ext.FromBytes s = some p ∧ IsExt p 0) ∧ ¬ ∃ A, Encodes s A := by
    intro s hs hy hne
    obtain ⟨p, hp⟩ := (C51_accepts s hs).2 ⟨0, by rw [hy]; rfl⟩
    obtain ⟨A, hA, hAy, -⟩ := C51_result s hs p hp
    have hzero : ∀ A : Pt, A.y = 1 → A = 0 := by
      intro A h
      refine Pt.ext ?_ h
      have := on_iff.1 A.on
      rw [h] at this
      have : (cd * 1 ^ 2 + 1) * A.x ^ 2 = 0 := by rw [this]; ring
      exact pow_eq_zero_iff (two_ne_zero) |>.1 ((mul_eq_zero.1 this).resolve_left (v_ne 1))
    rw [hy] at hAy
    refine ⟨⟨p, hp, by rw [← hzero A hAy]; exact hA⟩, ?_⟩
    rintro ⟨A', h'⟩
    obtain ⟨q, hq, hqA⟩ := C51_roundtrip s A' h'
    rw [hp] at hq
    injection hq with hq
    subst hq
    have e : A' = 0 := (representation_unique hqA hA).trans (hzero A hAy)
    have hv := h'.value
    rw [e] at hv
    refine hne (hv.trans ?_)
    show (1 : F).val + 2 ^ 255 * ((0 : F).val % 2) = 1
    rw [ZMod.val_zero, show ((1 : F).val) = 1 from by rw [← Nat.cast_one, ZMod.val_natCast]; decide +kernel]
    norm_num
  intro s hs
  simp only [List.mem_cons, List.not_mem_nil, or_false] at hs
  rcases hs with rfl | rfl
  · refine key _ (leBytes_length _ _) ?_ (by decide +kernel)
    rw [show leNat (leBytes 32 (1 + 2 ^ 255)) % 2 ^ 255 = 1 by decide +kernel, Nat.cast_one]
  · refine key _ (leBytes_length _ _) ?_ (by decide +kernel)
    rw [show ((1 : F)) = ((1 : Nat) : F) from Nat.cast_one.symm]
    exact natCast_eq_of_mod (by decide +kernel)

/-- Some strings are rejected: no point has `y = 2`. -/
example : Ext.FromBytes (leBytes 32 2) = none := by
  by_contra hne
  obtain ⟨p, hp⟩ := Option.ne_none_iff_exists'.1 hne
  obtain ⟨A, hA⟩ := (C51_accepts _ (leBytes_length _ _)).1 ⟨p, hp⟩
  rw [show leNat (leBytes 32 2) % 2 ^ 255 = 2 by decide +kernel] at hA
  have hon := on_iff.1 A.on
  rw [hA] at hon
  have hd := cd_def
  push_cast at hon
  have hsq : (((fieldP - 3 * 364994 * 121666 : Nat) : F)) = ((cd * 2 ^ 2 + 1) * A.x * 121666) ^ 2 := by
    rw [Nat.cast_sub (by decide +kernel), ZMod.natCast_self]
    push_cast
    linear_combination (-(cd * 2 ^ 2 + 1) * 121666 ^ 2) * hon - (12 * 121666) * hd
  have hpow : (((fieldP - 3 * 364994 * 121666 : Nat) : F)) ^ ((fieldP - 1) / 2) = -1 := by
    rw [natCast_powMod fieldP _ _ (by decide +kernel), show powMod fieldP 256 (fieldP - 3 * 364994 * 121666) ((fieldP - 1) / 2) = fieldP - 1 by decide +kernel,
      Nat.cast_sub (by decide +kernel), ZMod.natCast_self]
    simp
  rw [hsq, ← pow_mul, show 2 * ((fieldP - 1) / 2) = fieldP - 1 by decide +kernel] at hpow
  by_cases h0 : (cd * 2 ^ 2 + 1) * A.x * 121666 = 0
  · rw [h0, zero_pow (by decide +kernel)] at hpow
    exact absurd hpow.symm (neg_ne_zero.2 one_ne_zero)
  · rw [ZMod.pow_card_sub_one_eq_one h0] at hpow
    have h2 : ((2 : Nat) : F) ≠ 0 := natCast_ne_zero (by decide +kernel)
    apply h2
    push_cast
    linear_combination hpow

/-! ### C52 -/

/-- **C52.** `GeDoubleScalarMultVartime` computes `a A + b B`. -/
theorem C52_double_scalar_mult (a b : Bytes) (p : Ext) (A : Pt) (ha : a.length = 32) (hb : b.length = 32) (hal : leNat a < 2 ^ 255)
    (hbl : leNat b < 2 ^ 255) (hp : IsExt p A) :
    IsProj (GeDoubleScalarMultVartime a p b) (leNat a • A + leNat b • B) ∧
      Encodes (GeDoubleScalarMultVartime a p b).ToBytes (leNat a • A + leNat b • B) := by
  rw [isExt_iff] at hp
  have := GeDoubleScalarMultVartime_rep ha hal hb hbl hp
  exact ⟨(isProj_iff _ _).2 this, (encodes_iff _ _).2 (Proj.toBytes_eq this)⟩

/-- The hypotheses are met by the largest scalars and every point. -/
example (A : Pt) : ∃ p, IsExt p A ∧ IsProj (GeDoubleScalarMultVartime (leBytes 32 (2 ^ 255 - 1)) p (leBytes 32 (2 ^ 255 - 1)))
    ((2 ^ 255 - 1) • A + (2 ^ 255 - 1) • B) := by
  obtain ⟨p, hp⟩ := every_point_represented A
  refine ⟨p, hp, ?_⟩
  have e : leNat (leBytes 32 (2 ^ 255 - 1)) = 2 ^ 255 - 1 := by decide +kernel
  have := (C52_double_scalar_mult (leBytes 32 (2 ^ 255 - 1)) (leBytes 32 (2 ^ 255 - 1)) p A (leBytes_length _ _) (leBytes_length _ _)
    (by rw [e]; decide) (by rw [e]; decide) hp).1
  rwa [e] at this

end Cardano.Props
