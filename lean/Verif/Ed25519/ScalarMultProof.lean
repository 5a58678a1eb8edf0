import Verif.Ed25519.ScalarMultModel
import Verif.Ed25519.TableProof
import Mathlib.Tactic.IntervalCases
import Mathlib.Algebra.BigOperators.Intervals
/-!
# `GeScalarMultBase` computes multiples of the base point
-/
set_option autoImplicit false

namespace Cardano.Ed
open Curve

/-! ## Conditional moves -/

theorem ofInt_toInt32 (v : BitVec 32) : BitVec.ofInt 32 v.toInt = v := BitVec.ofInt_toInt

theorem wrap32_ofInt (x : Int) : (BitVec.ofInt 32 x).toInt = wrap 32 x := BitVec.toInt_ofInt x

theorem cmove_one (x y : Int) : xor32 x (and32 (wrap 32 (-1)) (xor32 x y)) = wrap 32 y := by
  unfold xor32 and32
  rw [ofInt_toInt32, ofInt_toInt32, ← wrap32_ofInt, ← wrap32_ofInt, ofInt_toInt32, show BitVec.ofInt 32 (-1) = BitVec.allOnes 32 by decide,
    BitVec.allOnes_and, ← BitVec.xor_assoc, BitVec.xor_self, BitVec.zero_xor]

theorem cmove_zero (x y : Int) : xor32 x (and32 (wrap 32 (-0)) (xor32 x y)) = wrap 32 x := by
  unfold xor32 and32
  rw [ofInt_toInt32, ofInt_toInt32, ← wrap32_ofInt, ← wrap32_ofInt, ofInt_toInt32, show BitVec.ofInt 32 (-0) = 0#32 by decide,
    BitVec.zero_and, BitVec.xor_zero]

theorem wrap_limb {x : Int} {n c : Nat} (h : x.natAbs ≤ n * c) (hn : n ≤ 3) (hc : c ≤ 36909875) : wrap 32 x = x := by
  have := Nat.mul_le_mul hn hc
  exact wrap_natAbs (by decide) (by simp only [Nat.reduceSub, Nat.reducePow]; omega)

theorem FeCMove_one {f g : FE} {n : Nat} (hf : f.length = 10) (hg : Bd n g) (hn : n ≤ 3) : FeCMove f g 1 = g := by
  obtain ⟨f0, f1, f2, f3, f4, f5, f6, f7, f8, f9, rfl⟩ := len10 hf
  obtain ⟨g0, g1, g2, g3, g4, g5, g6, g7, g8, g9, rfl⟩ := len10 hg.length
  rw [Bd_iff] at hg
  obtain ⟨h0, h1, h2, h3, h4, h5, h6, h7, h8, h9⟩ := hg
  simp only [FeCMove, List.zipWith_cons_cons, List.zipWith_nil_right, cmove_one]
  rw [wrap_limb h0 hn (by decide), wrap_limb h1 hn (by decide), wrap_limb h2 hn (by decide), wrap_limb h3 hn (by decide),
    wrap_limb h4 hn (by decide), wrap_limb h5 hn (by decide), wrap_limb h6 hn (by decide), wrap_limb h7 hn (by decide),
    wrap_limb h8 hn (by decide), wrap_limb h9 hn (by decide)]

theorem FeCMove_zero {f g : FE} {n : Nat} (hf : Bd n f) (hg : g.length = 10) (hn : n ≤ 3) : FeCMove f g 0 = f := by
  obtain ⟨f0, f1, f2, f3, f4, f5, f6, f7, f8, f9, rfl⟩ := len10 hf.length
  obtain ⟨g0, g1, g2, g3, g4, g5, g6, g7, g8, g9, rfl⟩ := len10 hg
  rw [Bd_iff] at hf
  obtain ⟨h0, h1, h2, h3, h4, h5, h6, h7, h8, h9⟩ := hf
  simp only [FeCMove, List.zipWith_cons_cons, List.zipWith_nil_right, cmove_zero]
  rw [wrap_limb h0 hn (by decide), wrap_limb h1 hn (by decide), wrap_limb h2 hn (by decide), wrap_limb h3 hn (by decide),
    wrap_limb h4 hn (by decide), wrap_limb h5 hn (by decide), wrap_limb h6 hn (by decide), wrap_limb h7 hn (by decide),
    wrap_limb h8 hn (by decide), wrap_limb h9 hn (by decide)]

attribute [local irreducible] FeMul FeSquare FeSquare2 FeAdd FeSub FeNeg FeInvert Bd fz base bi B baseAt

theorem CMove_one {t u : PreComp} {P Q : Pt} (ht : PreCompRep t P) (hu : PreCompRep u Q) : t.CMove u 1 = u := by
  unfold PreComp.CMove
  rw [FeCMove_one ht.bp.length hu.bp (by decide), FeCMove_one ht.bm.length hu.bm (by decide), FeCMove_one ht.bt.length hu.bt (by decide)]

theorem CMove_zero {t u : PreComp} {P Q : Pt} (ht : PreCompRep t P) (hu : PreCompRep u Q) : t.CMove u 0 = t := by
  unfold PreComp.CMove
  rw [FeCMove_zero ht.bp hu.bp.length (by decide), FeCMove_zero ht.bm hu.bm.length (by decide), FeCMove_zero ht.bt hu.bt.length (by decide)]

/-! ## Table look-up -/

theorem baseAt_rep {pos i : Nat} (hp : pos < 32) (hi : i < 8) : PreCompRep (baseAt pos i) (((i + 1) * 256 ^ pos) • B) := by
  obtain ⟨r, hr, hl⟩ := base_row hp
  refine base_rep hr ?_
  unfold baseAt
  have e : base.getD pos [] = r := by rw [List.getD_eq_getElem?_getD, hr, Option.getD_some]
  rw [e, List.getD_eq_getElem?_getD, List.getElem?_eq_getElem (by omega)]
  rfl

/-- The loop over a row picks entry `a - 1`, or the neutral element for `a = 0`. -/
theorem pick {pos : Nat} (hp : pos < 32) (a : Nat) (ha : a ≤ 8) : ∀ n, n ≤ 8 →
    PreCompRep ((List.range n).foldl (fun (t : PreComp) i => t.CMove (baseAt pos i) (equal a (i + 1))) PreComp.Zero)
      ((if a ≤ n then a * 256 ^ pos else 0) • B)
  | 0, _ => by
    rw [List.range_zero, List.foldl_nil]
    have : (if a ≤ 0 then a * 256 ^ pos else 0) = 0 := by split <;> simp_all
    rw [this, zero_nsmul]
    exact zero_preComp
  | n + 1, hn => by
    have ih := pick hp a ha n (by omega)
    have hb := baseAt_rep hp (show n < 8 by omega)
    rw [List.range_succ, List.foldl_append, List.foldl_cons, List.foldl_nil]
    generalize (List.range n).foldl (fun (t : PreComp) i => t.CMove (baseAt pos i) (equal a (i + 1))) PreComp.Zero = t at *
    have heq : ∀ n < 8, ∀ a ≤ 8, equal (a : Nat) ((n : Nat) + 1) = if a = n + 1 then 1 else 0 := by decide +kernel
    rw [heq n (by omega) a ha]
    by_cases h : a = n + 1
    · rw [if_pos h, if_pos (by omega), CMove_one ih hb, h]
      exact hb
    · rw [if_neg h, CMove_zero ih hb]
      by_cases h1 : a ≤ n
      · rw [if_pos h1] at ih
        rw [if_pos (by omega)]; exact ih
      · rw [if_neg h1] at ih
        rw [if_neg (by omega)]; exact ih

theorem neg_preComp {t : PreComp} {P : Pt} (h : PreCompRep t P) : PreCompRep ⟨t.yMinusX, t.yPlusX, FeNeg t.xy2d⟩ (-P) := by
  refine ⟨h.bm, h.bp, (FeNeg_spec h.bt (by decide)).1, ?_, ?_, ?_⟩
  · show fz t.yMinusX = _; rw [h.minus, Pt.neg_x, Pt.neg_y]; ring
  · show fz t.yPlusX = _; rw [h.plus, Pt.neg_x, Pt.neg_y]; ring
  · show fz (FeNeg t.xy2d) = _; rw [fz_neg h.bt (by decide), h.t, Pt.neg_x, Pt.neg_y]; ring

theorem selectPoint_rep {pos : Nat} (hp : pos < 32) {b : Int} (h1 : -8 ≤ b) (h2 : b ≤ 8) :
    PreCompRep (selectPoint pos b) ((b * 256 ^ pos) • B) := by
  have hn : negative b = if b < 0 then 1 else 0 := by interval_cases b <;> decide +kernel
  have ha : wrap 32 (b - wrap 32 (and32 (wrap 32 (-negative b)) b * 2)) = (b.natAbs : Int) := by interval_cases b <;> decide +kernel
  have hp8 := pick hp b.natAbs (by omega) 8 (by decide)
  rw [if_pos (by omega)] at hp8
  unfold selectPoint
  simp only [ha]
  generalize (List.range 8).foldl (fun (t : PreComp) i => t.CMove (baseAt pos i) (equal b.natAbs (i + 1))) PreComp.Zero = t at *
  have hm := neg_preComp hp8
  rw [hn]
  have hc : ((b.natAbs : Int) * 256 ^ pos) • B = (b.natAbs * 256 ^ pos) • B := by
    rw [← natCast_zsmul]; push_cast; rfl
  by_cases hb : b < 0
  · rw [if_pos hb, CMove_one hp8 hm]
    have : (b * 256 ^ pos) • B = -((b.natAbs * 256 ^ pos) • B) := by
      rw [← hc, ← neg_zsmul, ← neg_mul]; congr 2; omega
    rw [this]; exact hm
  · rw [if_neg hb, CMove_zero hp8 hm]
    have : (b * 256 ^ pos) • B = (b.natAbs * 256 ^ pos) • B := by
      rw [← hc]; congr 2; omega
    rw [this]; exact hp8

/-! ## Digits -/

/-- The number with the given signed digits, base 16. -/
def dval : List Int → Int
  | [] => 0
  | e :: es => e + 16 * dval es

theorem nibble_lo (v : UInt8) : wrap 8 ((v &&& 15).toNat) = (v.toNat % 16 : Nat) ∧ wrap 8 ((v >>> 4 &&& 15).toNat) = (v.toNat / 16 : Nat) := by
  revert v; exact forall_byte (by decide +kernel)

theorem nibbles_spec : ∀ a : Bytes, (nibbles a).length = 2 * a.length ∧ dval (nibbles a) = leNat a ∧ ∀ e ∈ nibbles a, 0 ≤ e ∧ e ≤ 15
  | [] => ⟨rfl, rfl, by simp [nibbles]⟩
  | v :: a => by
    obtain ⟨h1, h2, h3⟩ := nibbles_spec a
    obtain ⟨e1, e2⟩ := nibble_lo v
    have hv := UInt8.toNat_lt v
    simp only [nibbles, e1, e2]
    refine ⟨by simp [h1]; omega, ?_, ?_⟩
    · simp only [dval, h2, leNat]
      push_cast
      omega
    · intro e he
      rcases List.mem_cons.1 he with rfl | he
      · omega
      rcases List.mem_cons.1 he with rfl | he
      · omega
      exact h3 e he

theorem recode_spec : ∀ (es : List Int) (c : Int), 0 ≤ c → c ≤ 1 → (∀ e ∈ es, 0 ≤ e ∧ e ≤ 15) → es ≠ [] →
    (recode c es).length = es.length ∧ dval (recode c es) = dval es + c ∧
      (dval es < 8 * 16 ^ (es.length - 1) → ∀ e ∈ recode c es, -8 ≤ e ∧ e ≤ 8)
  | [], _, _, _, _, h => absurd rfl h
  | [e], c, c0, c1, he, _ => by
    have := he e (by simp)
    have w : wrap 8 (e + c) = e + c := wrap_id (by norm_num; omega) (by norm_num; omega) (by decide)
    refine ⟨rfl, ?_, ?_⟩
    · simp only [recode, dval, w]; omega
    · intro h e' he'
      simp only [recode, List.mem_singleton, w] at he'
      simp only [dval, List.length_cons, List.length_nil] at h
      norm_num at h
      omega
  | e :: e' :: es, c, c0, c1, he, _ => by
    have h0 := he e (by simp)
    have w1 : wrap 8 (e + c) = e + c := wrap_id (by norm_num; omega) (by norm_num; omega) (by decide)
    have w2 : wrap 8 (e + c + 8) = e + c + 8 := wrap_id (by norm_num; omega) (by norm_num; omega) (by decide)
    have hc : 0 ≤ (e + c + 8) / 16 ∧ (e + c + 8) / 16 ≤ 1 := by omega
    have w3 : wrap 8 ((e + c + 8) / 16 * 16) = (e + c + 8) / 16 * 16 := wrap_id (by norm_num; omega) (by norm_num; omega) (by decide)
    have w4 : wrap 8 (e + c - (e + c + 8) / 16 * 16) = e + c - (e + c + 8) / 16 * 16 :=
      wrap_id (by norm_num; omega) (by norm_num; omega) (by decide)
    have er : recode c (e :: e' :: es) = (e + c - (e + c + 8) / 16 * 16) :: recode ((e + c + 8) / 16) (e' :: es) := by
      simp only [recode, w1, w2, show (2 : Int) ^ 4 = 16 by norm_num, w3, w4]
    obtain ⟨i1, i2, i3⟩ := recode_spec (e' :: es) ((e + c + 8) / 16) hc.1 hc.2 (fun x hx => he x (by simp [hx])) (by simp)
    rw [er]
    refine ⟨by simp [i1], ?_, ?_⟩
    · simp only [dval, i2] at *
      omega
    · intro h x hx
      rcases List.mem_cons.1 hx with rfl | hx
      · omega
      · refine i3 ?_ x hx
        have : dval (e :: e' :: es) = e + 16 * dval (e' :: es) := rfl
        rw [this] at h
        have hp : (8 * 16 ^ ((e :: e' :: es).length - 1) : Int) = 16 * (8 * 16 ^ ((e' :: es).length - 1)) := by
          simp only [List.length_cons, Nat.add_sub_cancel]
          rw [pow_succ]; ring
        rw [hp] at h
        omega

/-- Pairing digits. -/
theorem dval_pairs : ∀ (n : Nat) (e : List Int), e.length = 2 * n →
    dval e = ∑ p ∈ Finset.range n, (lget e (2 * p) * 256 ^ p + 16 * (lget e (2 * p + 1) * 256 ^ p))
  | 0, e, h => by
    have : e = [] := List.length_eq_zero_iff.1 (by simpa using h)
    subst this; rfl
  | n + 1, e, h => by
    match e, h with
    | a :: b :: e, h =>
      have ih := dval_pairs n e (by simp at h; omega)
      rw [Finset.sum_range_succ']
      have e1 : ∀ p, lget (a :: b :: e) (2 * (p + 1)) = lget e (2 * p) := fun p => rfl
      have e2 : ∀ p, lget (a :: b :: e) (2 * (p + 1) + 1) = lget e (2 * p + 1) := fun p => rfl
      simp only [e1, e2, dval, ih]
      have : ∀ p ∈ Finset.range n, lget e (2 * p) * 256 ^ (p + 1) + 16 * (lget e (2 * p + 1) * 256 ^ (p + 1))
          = 256 * (lget e (2 * p) * 256 ^ p + 16 * (lget e (2 * p + 1) * 256 ^ p)) := by
        intro p _; rw [pow_succ]; ring
      rw [Finset.sum_congr rfl this, ← Finset.mul_sum]
      simp only [lget, Nat.mul_zero, List.getD_cons_zero, List.getD_cons_succ, pow_zero, Nat.zero_add]
      ring

/-! ## The loops -/

theorem baseLoop_aux {e : List Int} {odd : Nat} (hd : ∀ i, -8 ≤ lget e i ∧ lget e i ≤ 8) {h : Ext} {P : Pt} (hh : ExtRep h P) :
    ∀ n, n ≤ 32 → ExtRep ((List.range n).foldl (fun h pos => (geMixedAdd h (selectPoint pos (lget e (2 * pos + odd)))).ToExtended) h)
      (P + (∑ p ∈ Finset.range n, lget e (2 * p + odd) * 256 ^ p) • B)
  | 0, _ => by simpa using hh
  | n + 1, hn => by
    have ih := baseLoop_aux (odd := odd) hd hh n (by omega)
    rw [List.range_succ, List.foldl_append, List.foldl_cons, List.foldl_nil]
    have := (geMixedAdd_rep ih (selectPoint_rep (show n < 32 by omega) (hd (2 * n + odd)).1 (hd (2 * n + odd)).2)).toExtended
    rw [Finset.sum_range_succ, add_zsmul, ← add_assoc]
    exact this

theorem baseLoop_rep {e : List Int} {odd : Nat} (hd : ∀ i, -8 ≤ lget e i ∧ lget e i ≤ 8) {h : Ext} {P : Pt} (hh : ExtRep h P) :
    ExtRep (baseLoop e odd h) (P + (∑ p ∈ Finset.range 32, lget e (2 * p + odd) * 256 ^ p) • B) := baseLoop_aux hd hh 32 (by decide)

theorem lget_mem_or (e : List Int) (i : Nat) : lget e i ∈ e ∨ lget e i = 0 := by
  unfold lget
  rw [List.getD_eq_getElem?_getD]
  cases h : e[i]? with
  | none => right; rfl
  | some x => left; exact List.mem_of_getElem? h

/-- `GeScalarMultBase` computes the multiple of the base point. -/
theorem GeScalarMultBase_rep {a : Bytes} (ha : a.length = 32) (hlt : leNat a < 2 ^ 255) : ExtRep (GeScalarMultBase a) (leNat a • B) := by
  obtain ⟨n1, n2, n3⟩ := nibbles_spec a
  rw [ha] at n1
  obtain ⟨r1, r2, r3⟩ := recode_spec (nibbles a) 0 (by decide) (by decide) n3 (by intro h; rw [h] at n1; simp at n1)
  have hb : dval (nibbles a) < 8 * 16 ^ ((nibbles a).length - 1) := by
    rw [n1, n2]
    have : (leNat a : Int) < ((2 ^ 255 : Nat) : Int) := Int.ofNat_lt.2 hlt
    refine lt_of_lt_of_eq this ?_
    norm_num
  have r3 := r3 hb
  have hd : ∀ i, -8 ≤ lget (recode 0 (nibbles a)) i ∧ lget (recode 0 (nibbles a)) i ≤ 8 := by
    intro i
    rcases lget_mem_or (recode 0 (nibbles a)) i with h | h
    · exact r3 _ h
    · rw [h]; decide
  have hv := dval_pairs 32 (recode 0 (nibbles a)) (by rw [r1, n1])
  rw [r2, n2, add_zero] at hv
  unfold GeScalarMultBase
  dsimp only
  generalize recode 0 (nibbles a) = e at *
  have l1 := baseLoop_rep (odd := 1) hd zero_ext
  generalize baseLoop e 1 Ext.Zero = h at *
  rw [zero_add] at l1
  have d1 := (Ext.double_rep l1).toProjective
  have d2 := (Proj.double_rep d1).toProjective
  have d3 := (Proj.double_rep d2).toProjective
  have d4 := (Proj.double_rep d3).toExtended
  have l2 := baseLoop_rep (odd := 0) hd d4
  simp only [← add_zsmul] at l2
  have : leNat a • B = ((leNat a : Int)) • B := (natCast_zsmul _ _).symm
  rw [this, hv, Finset.sum_add_distrib, ← Finset.mul_sum]
  refine Eq.mp ?_ l2
  congr 2
  simp only [Nat.add_zero]
  ring

end Cardano.Ed
