import Verif.Ed25519.Group
import Verif.Ed25519.GroupModel
/-!
# The group operations compute the group law
-/
set_option autoImplicit false

namespace Cardano.Ed
open Curve

/-! ## Constants -/

theorem fz_of_mod {x : FE} {n : Nat} (h : fval x % fieldP = (n : Int) % fieldP) : fz x = (n : F) := by
  have : (fval x : F) = ((n : Int) : F) := (ZMod.intCast_eq_intCast_iff' _ _ fieldP).2 h
  rw [fz, this, Int.cast_natCast]

theorem d_bd : Bd 1 d := by unfold d; rw [Bd_iff]; decide +kernel
theorem d2_bd : Bd 1 d2 := by unfold d2; rw [Bd_iff]; decide +kernel
theorem SqrtM1_bd : Bd 1 SqrtM1 := by unfold SqrtM1; rw [Bd_iff]; decide +kernel

theorem fz_d : fz d = cd := fz_of_mod (by decide +kernel)

theorem fz_d2 : fz d2 = 2 * cd := by
  rw [fz_of_mod (x := d2) (n := 2 * dN) (by decide +kernel)]
  unfold cd
  push_cast
  rfl

theorem fz_SqrtM1 : fz SqrtM1 = ci := fz_of_mod (by decide +kernel)

attribute [local irreducible] FeMul FeSquare FeSquare2 FeAdd FeSub FeNeg FeInvert fePow22523 FeToBytes FeFromBytes Bd fz

/-! ## Representations of curve points

The bounds are those the operations need: `X` of an extended element may be up to twice the documented bound after `FromBytes`. -/

structure ProjRep (p : Proj) (P : Pt) : Prop where
  bX : Bd 2 p.X
  bY : Bd 1 p.Y
  bZ : Bd 1 p.Z
  z : fz p.Z ≠ 0
  x : fz p.X = P.x * fz p.Z
  y : fz p.Y = P.y * fz p.Z

structure ExtRep (p : Ext) (P : Pt) : Prop where
  bX : Bd 2 p.X
  bY : Bd 1 p.Y
  bZ : Bd 1 p.Z
  bT : Bd 1 p.T
  z : fz p.Z ≠ 0
  x : fz p.X = P.x * fz p.Z
  y : fz p.Y = P.y * fz p.Z
  t : fz p.T = P.x * P.y * fz p.Z

structure ComplRep (p : Compl) (P : Pt) : Prop where
  bX : Bd 3 p.X
  bY : Bd 3 p.Y
  bZ : Bd 3 p.Z
  bT : Bd 3 p.T
  z : fz p.Z ≠ 0
  t : fz p.T ≠ 0
  x : fz p.X = P.x * fz p.Z
  y : fz p.Y = P.y * fz p.T

structure PreCompRep (p : PreComp) (P : Pt) : Prop where
  bp : Bd 1 p.yPlusX
  bm : Bd 1 p.yMinusX
  bt : Bd 1 p.xy2d
  plus : fz p.yPlusX = P.y + P.x
  minus : fz p.yMinusX = P.y - P.x
  t : fz p.xy2d = 2 * cd * P.x * P.y

structure CachedRep (p : Cached) (P : Pt) : Prop where
  bp : Bd 3 p.yPlusX
  bm : Bd 3 p.yMinusX
  bz : Bd 1 p.Z
  bt : Bd 1 p.T2d
  z : fz p.Z ≠ 0
  plus : fz p.yPlusX = (P.y + P.x) * fz p.Z
  minus : fz p.yMinusX = (P.y - P.x) * fz p.Z
  t : fz p.T2d = 2 * cd * P.x * P.y * fz p.Z

theorem zero_proj : ProjRep Proj.Zero 0 :=
  ⟨zero_bd.mono (by decide), one_bd, one_bd, by rw [Proj.Zero, fz_one]; exact one_ne_zero,
    by rw [Proj.Zero, fz_zero, fz_one]; simp, by rw [Proj.Zero, fz_one]; simp⟩

theorem zero_ext : ExtRep Ext.Zero 0 :=
  ⟨zero_bd.mono (by decide), one_bd, one_bd, zero_bd.mono (by decide), by rw [Ext.Zero, fz_one]; exact one_ne_zero,
    by rw [Ext.Zero, fz_zero, fz_one]; simp, by rw [Ext.Zero, fz_one]; simp, by rw [Ext.Zero, fz_zero, fz_one]; simp⟩

theorem zero_preComp : PreCompRep PreComp.Zero 0 :=
  ⟨one_bd, one_bd, zero_bd.mono (by decide), by rw [PreComp.Zero, fz_one]; simp, by rw [PreComp.Zero, fz_one]; simp,
    by rw [PreComp.Zero, fz_zero]; simp⟩

theorem ExtRep.toProjective {p : Ext} {P : Pt} (h : ExtRep p P) : ProjRep p.ToProjective P := ⟨h.bX, h.bY, h.bZ, h.z, h.x, h.y⟩

theorem ComplRep.toProjective {p : Compl} {P : Pt} (h : ComplRep p P) : ProjRep p.ToProjective P := by
  refine ⟨(FeMul_spec h.bX h.bT).1.mono (by decide), (FeMul_spec h.bY h.bZ).1, (FeMul_spec h.bZ h.bT).1, ?_, ?_, ?_⟩
  · show fz (FeMul p.Z p.T) ≠ 0
    rw [fz_mul h.bZ h.bT]; exact mul_ne_zero h.z h.t
  · show fz (FeMul p.X p.T) = _ * fz (FeMul p.Z p.T)
    rw [fz_mul h.bX h.bT, fz_mul h.bZ h.bT, h.x, mul_assoc]
  · show fz (FeMul p.Y p.Z) = _ * fz (FeMul p.Z p.T)
    rw [fz_mul h.bY h.bZ, fz_mul h.bZ h.bT, h.y]; ring

theorem ComplRep.toExtended {p : Compl} {P : Pt} (h : ComplRep p P) : ExtRep p.ToExtended P := by
  have hp := h.toProjective
  refine ⟨hp.bX, hp.bY, hp.bZ, (FeMul_spec h.bX h.bY).1, hp.z, hp.x, hp.y, ?_⟩
  show fz (FeMul p.X p.Y) = _ * fz (FeMul p.Z p.T)
  rw [fz_mul h.bX h.bY, fz_mul h.bZ h.bT, h.x, h.y]; ring

theorem ExtRep.toCached {p : Ext} {P : Pt} (h : ExtRep p P) : CachedRep p.ToCached P := by
  have ha := FeAdd_spec h.bY h.bX (by decide)
  have hs := FeSub_spec h.bY h.bX (by decide)
  have hm := FeMul_spec (h.bT.mono (n := 3) (by decide)) (d2_bd.mono (n := 3) (by decide))
  refine ⟨ha.1, hs.1, h.bZ, hm.1, h.z, ?_, ?_, ?_⟩
  · show fz (FeAdd p.Y p.X) = _ * fz p.Z
    rw [fz_add h.bY h.bX (by decide), h.x, h.y]; ring
  · show fz (FeSub p.Y p.X) = _ * fz p.Z
    rw [fz_sub h.bY h.bX (by decide), h.x, h.y]; ring
  · show fz (FeMul p.T d2) = _ * fz p.Z
    rw [fz_mul (h.bT.mono (by decide)) (d2_bd.mono (by decide)), fz_d2, h.t]; ring

/-! ## The group law -/

theorem Pt.add_x_mul (P Q : Pt) : (P + Q).x * dp cd P.x P.y Q.x Q.y = P.x * Q.y + Q.x * P.y := div_mul_cancel₀ _ (Pt.den P Q).1
theorem Pt.add_y_mul (P Q : Pt) : (P + Q).y * dm cd P.x P.y Q.x Q.y = P.y * Q.y + P.x * Q.x := div_mul_cancel₀ _ (Pt.den P Q).2

theorem Proj.double_rep {p : Proj} {P : Pt} (h : ProjRep p P) : ComplRep p.Double (P + P) := by
  have bX3 := h.bX.mono (n := 3) (by decide)
  have bY3 := h.bY.mono (n := 3) (by decide)
  have bZ3 := h.bZ.mono (n := 3) (by decide)
  have xx := FeSquare_spec bX3
  have yy := FeSquare_spec bY3
  have zz := FeSquare2_spec bZ3
  have s := FeAdd_spec h.bX h.bY (by decide)
  have t0 := FeSquare_spec s.1
  have rY := FeAdd_spec yy.1 xx.1 (by decide)
  have rZ := FeSub_spec yy.1 xx.1 (by decide)
  have rX := FeSub_spec t0.1 rY.1 (by decide)
  have rT := FeSub_spec zz.1 rZ.1 (by decide)
  have on := P.on
  have den := Pt.den P P
  have ax := Pt.add_x_mul P P
  have ay := Pt.add_y_mul P P
  unfold On at on
  have ez : fz (FeSub (FeSquare p.Y) (FeSquare p.X)) = fz p.Z ^ 2 * dp cd P.x P.y P.x P.y := by
    rw [fz_sub yy.1 xx.1 (by decide), fz_sq bX3, fz_sq bY3, h.x, h.y]
    unfold dp
    linear_combination fz p.Z ^ 2 * on
  have et : fz (FeSub (FeSquare2 p.Z) (FeSub (FeSquare p.Y) (FeSquare p.X))) = fz p.Z ^ 2 * dm cd P.x P.y P.x P.y := by
    rw [fz_sub zz.1 rZ.1 (by decide), ez, fz_sq2 bZ3]
    unfold dp dm
    ring
  refine ⟨rX.1, rY.1.mono (by decide), rZ.1.mono (by decide), rT.1, ?_, ?_, ?_, ?_⟩
  · show fz (FeSub (FeSquare p.Y) (FeSquare p.X)) ≠ 0
    rw [ez]; exact mul_ne_zero (pow_ne_zero _ h.z) den.1
  · show fz (FeSub (FeSquare2 p.Z) (FeSub (FeSquare p.Y) (FeSquare p.X))) ≠ 0
    rw [et]; exact mul_ne_zero (pow_ne_zero _ h.z) den.2
  · show fz (FeSub (FeSquare (FeAdd p.X p.Y)) (FeAdd (FeSquare p.Y) (FeSquare p.X))) = _ * fz (FeSub (FeSquare p.Y) (FeSquare p.X))
    rw [ez, fz_sub t0.1 rY.1 (by decide), fz_sq s.1, fz_add h.bX h.bY (by decide), fz_add yy.1 xx.1 (by decide), fz_sq bX3, fz_sq bY3,
      h.x, h.y]
    linear_combination -fz p.Z ^ 2 * ax
  · show fz (FeAdd (FeSquare p.Y) (FeSquare p.X)) = _ * fz (FeSub (FeSquare2 p.Z) (FeSub (FeSquare p.Y) (FeSquare p.X)))
    rw [et, fz_add yy.1 xx.1 (by decide), fz_sq bX3, fz_sq bY3, h.x, h.y]
    linear_combination -fz p.Z ^ 2 * ay

theorem Ext.double_rep {p : Ext} {P : Pt} (h : ExtRep p P) : ComplRep p.Double (P + P) := Proj.double_rep h.toProjective

/-- What the four additions have in common: `A`, `B` the products of `Y ± X`, `C` twice the product of the `Z`, `D` that of the `T`. -/
theorem add_core {A B C D : FE} {P Q : Pt} {z : F} (hA : Bd 1 A) (hB : Bd 1 B) (hC : Bd 2 C) (hD : Bd 1 D) (hz : z ≠ 0)
    (eA : fz A = (P.y + P.x) * (Q.y + Q.x) * z) (eB : fz B = (P.y - P.x) * (Q.y - Q.x) * z) (eC : fz C = 2 * z)
    (eD : fz D = 2 * cd * Q.x * Q.y * P.x * P.y * z) :
    ComplRep ⟨FeSub A B, FeAdd A B, FeAdd C D, FeSub C D⟩ (P + Q) := by
  have rX := FeSub_spec hA hB (by decide)
  have rY := FeAdd_spec hA hB (by decide)
  have rZ := FeAdd_spec hC hD (by decide)
  have rT := FeSub_spec hC hD (by decide)
  have den := Pt.den P Q
  have ax := Pt.add_x_mul P Q
  have ay := Pt.add_y_mul P Q
  have ez : fz (FeAdd C D) = 2 * z * dp cd P.x P.y Q.x Q.y := by
    rw [fz_add hC hD (by decide), eC, eD]; unfold dp; ring
  have et : fz (FeSub C D) = 2 * z * dm cd P.x P.y Q.x Q.y := by
    rw [fz_sub hC hD (by decide), eC, eD]; unfold dm; ring
  refine ⟨rX.1.mono (by decide), rY.1.mono (by decide), rZ.1, rT.1, ?_, ?_, ?_, ?_⟩
  · show fz (FeAdd C D) ≠ 0
    rw [ez]; exact mul_ne_zero (mul_ne_zero two_ne hz) den.1
  · show fz (FeSub C D) ≠ 0
    rw [et]; exact mul_ne_zero (mul_ne_zero two_ne hz) den.2
  · show fz (FeSub A B) = _ * fz (FeAdd C D)
    rw [ez, fz_sub hA hB (by decide), eA, eB]
    linear_combination -2 * z * ax
  · show fz (FeAdd A B) = _ * fz (FeSub C D)
    rw [et, fz_add hA hB (by decide), eA, eB]
    linear_combination -2 * z * ay

/-- Subtraction exchanges the sum and the difference of `C` and `D`. -/
theorem sub_core {A B C D : FE} {P Q : Pt} {z : F} (hA : Bd 1 A) (hB : Bd 1 B) (hC : Bd 2 C) (hD : Bd 1 D) (hz : z ≠ 0)
    (eA : fz A = (P.y + P.x) * (Q.y - Q.x) * z) (eB : fz B = (P.y - P.x) * (Q.y + Q.x) * z) (eC : fz C = 2 * z)
    (eD : fz D = 2 * cd * Q.x * Q.y * P.x * P.y * z) :
    ComplRep ⟨FeSub A B, FeAdd A B, FeSub C D, FeAdd C D⟩ (P - Q) := by
  have rX := FeSub_spec hA hB (by decide)
  have rY := FeAdd_spec hA hB (by decide)
  have rZ := FeAdd_spec hC hD (by decide)
  have rT := FeSub_spec hC hD (by decide)
  rw [sub_eq_add_neg]
  have den := Pt.den P (-Q)
  have ax := Pt.add_x_mul P (-Q)
  have ay := Pt.add_y_mul P (-Q)
  simp only [Pt.neg_x, Pt.neg_y] at den ax ay
  have ez : fz (FeSub C D) = 2 * z * dp cd P.x P.y (-Q.x) Q.y := by
    rw [fz_sub hC hD (by decide), eC, eD]; unfold dp; ring
  have et : fz (FeAdd C D) = 2 * z * dm cd P.x P.y (-Q.x) Q.y := by
    rw [fz_add hC hD (by decide), eC, eD]; unfold dm; ring
  refine ⟨rX.1.mono (by decide), rY.1.mono (by decide), rT.1, rZ.1, ?_, ?_, ?_, ?_⟩
  · show fz (FeSub C D) ≠ 0
    rw [ez]; exact mul_ne_zero (mul_ne_zero two_ne hz) den.1
  · show fz (FeAdd C D) ≠ 0
    rw [et]; exact mul_ne_zero (mul_ne_zero two_ne hz) den.2
  · show fz (FeSub A B) = _ * fz (FeSub C D)
    rw [ez, fz_sub hA hB (by decide), eA, eB]
    linear_combination -2 * z * ax
  · show fz (FeAdd A B) = _ * fz (FeAdd C D)
    rw [et, fz_add hA hB (by decide), eA, eB]
    linear_combination -2 * z * ay

section
variable {p : Ext} {P Q : Pt}

theorem geAdd_rep {q : Cached} (h : ExtRep p P) (g : CachedRep q Q) : ComplRep (geAdd p q) (P + Q) := by
  have s := FeAdd_spec h.bY h.bX (by decide)
  have m := FeSub_spec h.bY h.bX (by decide)
  have bt := g.bt.mono (n := 3) (by decide)
  have bT := h.bT.mono (n := 3) (by decide)
  have bz := g.bz.mono (n := 3) (by decide)
  have bZ := h.bZ.mono (n := 3) (by decide)
  have hz := FeMul_spec bZ bz
  refine add_core (z := fz p.Z * fz q.Z) (FeMul_spec s.1 g.bp).1 (FeMul_spec m.1 g.bm).1 (FeAdd_spec hz.1 hz.1 (by decide)).1
    (FeMul_spec bt bT).1 (mul_ne_zero h.z g.z) ?_ ?_ ?_ ?_
  · rw [fz_mul s.1 g.bp, fz_add h.bY h.bX (by decide), h.x, h.y, g.plus]; ring
  · rw [fz_mul m.1 g.bm, fz_sub h.bY h.bX (by decide), h.x, h.y, g.minus]; ring
  · rw [fz_add hz.1 hz.1 (by decide), fz_mul bZ bz]; ring
  · rw [fz_mul bt bT, g.t, h.t]; ring

theorem geSub_rep {q : Cached} (h : ExtRep p P) (g : CachedRep q Q) : ComplRep (geSub p q) (P - Q) := by
  have s := FeAdd_spec h.bY h.bX (by decide)
  have m := FeSub_spec h.bY h.bX (by decide)
  have bt := g.bt.mono (n := 3) (by decide)
  have bT := h.bT.mono (n := 3) (by decide)
  have bz := g.bz.mono (n := 3) (by decide)
  have bZ := h.bZ.mono (n := 3) (by decide)
  have hz := FeMul_spec bZ bz
  refine sub_core (z := fz p.Z * fz q.Z) (FeMul_spec s.1 g.bm).1 (FeMul_spec m.1 g.bp).1 (FeAdd_spec hz.1 hz.1 (by decide)).1
    (FeMul_spec bt bT).1 (mul_ne_zero h.z g.z) ?_ ?_ ?_ ?_
  · rw [fz_mul s.1 g.bm, fz_add h.bY h.bX (by decide), h.x, h.y, g.minus]; ring
  · rw [fz_mul m.1 g.bp, fz_sub h.bY h.bX (by decide), h.x, h.y, g.plus]; ring
  · rw [fz_add hz.1 hz.1 (by decide), fz_mul bZ bz]; ring
  · rw [fz_mul bt bT, g.t, h.t]; ring

theorem geMixedAdd_rep {q : PreComp} (h : ExtRep p P) (g : PreCompRep q Q) : ComplRep (geMixedAdd p q) (P + Q) := by
  have s := FeAdd_spec h.bY h.bX (by decide)
  have m := FeSub_spec h.bY h.bX (by decide)
  have bt := g.bt.mono (n := 3) (by decide)
  have bT := h.bT.mono (n := 3) (by decide)
  have bp := g.bp.mono (n := 3) (by decide)
  have bm := g.bm.mono (n := 3) (by decide)
  refine add_core (z := fz p.Z) (FeMul_spec s.1 bp).1 (FeMul_spec m.1 bm).1 (FeAdd_spec h.bZ h.bZ (by decide)).1
    (FeMul_spec bt bT).1 h.z ?_ ?_ ?_ ?_
  · rw [fz_mul s.1 bp, fz_add h.bY h.bX (by decide), h.x, h.y, g.plus]; ring
  · rw [fz_mul m.1 bm, fz_sub h.bY h.bX (by decide), h.x, h.y, g.minus]; ring
  · rw [fz_add h.bZ h.bZ (by decide)]; ring
  · rw [fz_mul bt bT, g.t, h.t]; ring

theorem geMixedSub_rep {q : PreComp} (h : ExtRep p P) (g : PreCompRep q Q) : ComplRep (geMixedSub p q) (P - Q) := by
  have s := FeAdd_spec h.bY h.bX (by decide)
  have m := FeSub_spec h.bY h.bX (by decide)
  have bt := g.bt.mono (n := 3) (by decide)
  have bT := h.bT.mono (n := 3) (by decide)
  have bp := g.bp.mono (n := 3) (by decide)
  have bm := g.bm.mono (n := 3) (by decide)
  refine sub_core (z := fz p.Z) (FeMul_spec s.1 bm).1 (FeMul_spec m.1 bp).1 (FeAdd_spec h.bZ h.bZ (by decide)).1
    (FeMul_spec bt bT).1 h.z ?_ ?_ ?_ ?_
  · rw [fz_mul s.1 bm, fz_add h.bY h.bX (by decide), h.x, h.y, g.minus]; ring
  · rw [fz_mul m.1 bp, fz_sub h.bY h.bX (by decide), h.x, h.y, g.plus]; ring
  · rw [fz_add h.bZ h.bZ (by decide)]; ring
  · rw [fz_mul bt bT, g.t, h.t]; ring

end

end Cardano.Ed
