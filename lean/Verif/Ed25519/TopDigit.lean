import Verif.Ed25519.ScalarMultProof
/-!
# `GeScalarMultBase` on all 32-byte scalars

The function documents `a[31] <= 127`. Beyond, the last digit of the scalar can exceed 8, for which the table has no entry: the digit is
then dropped. This file determines the result for all scalars.
-/
set_option autoImplicit false

namespace Cardano.Ed
open Curve

attribute [local irreducible] FeMul FeSquare FeSquare2 FeAdd FeSub FeNeg FeInvert Bd fz base bi B baseAt

/-- The digit the table look-up effectively uses. -/
def clip (b : Int) : Int := if b ≤ 8 then b else 0

theorem pick_big {pos : Nat} (hp : pos < 32) (a : Nat) (ha : 8 < a) (ha' : a ≤ 16) : ∀ n, n ≤ 8 →
    PreCompRep ((List.range n).foldl (fun (t : PreComp) i => t.CMove (baseAt pos i) (equal a (i + 1))) PreComp.Zero) 0
  | 0, _ => by rw [List.range_zero, List.foldl_nil]; exact zero_preComp
  | n + 1, hn => by
    have ih := pick_big hp a ha ha' n (by omega)
    have hb := baseAt_rep hp (show n < 8 by omega)
    rw [List.range_succ, List.foldl_append, List.foldl_cons, List.foldl_nil]
    generalize (List.range n).foldl (fun (t : PreComp) i => t.CMove (baseAt pos i) (equal a (i + 1))) PreComp.Zero = t at *
    have heq : ∀ n < 8, ∀ a ≤ 16, equal (a : Nat) ((n : Nat) + 1) = if a = n + 1 then 1 else 0 := by decide +kernel
    rw [heq n (by omega) a ha', if_neg (by omega), CMove_zero ih hb]
    exact ih

theorem selectPoint_clip {pos : Nat} (hp : pos < 32) {b : Int} (h1 : -8 ≤ b) (h2 : b ≤ 16) :
    PreCompRep (selectPoint pos b) ((clip b * 256 ^ pos) • B) := by
  by_cases h : b ≤ 8
  · rw [clip, if_pos h]; exact selectPoint_rep hp h1 h
  · rw [clip, if_neg h, zero_mul, zero_zsmul]
    have hb : 8 < b := by omega
    clear h1 h
    have hn : negative b = 0 := by interval_cases b <;> decide +kernel
    have ha : wrap 32 (b - wrap 32 (and32 (wrap 32 (-negative b)) b * 2)) = (b.natAbs : Int) := by interval_cases b <;> decide +kernel
    have hp8 := pick_big hp b.natAbs (by omega) (by omega) 8 (by decide)
    unfold selectPoint
    simp only [ha]
    generalize (List.range 8).foldl (fun (t : PreComp) i => t.CMove (baseAt pos i) (equal b.natAbs (i + 1))) PreComp.Zero = t at *
    rw [hn, CMove_zero hp8 (neg_preComp hp8)]
    exact hp8

theorem baseLoop_clip {e : List Int} {odd : Nat} (hd : ∀ i, -8 ≤ lget e i ∧ lget e i ≤ 16) {h : Ext} {P : Pt} (hh : ExtRep h P) :
    ∀ n, n ≤ 32 → ExtRep ((List.range n).foldl (fun h pos => (geMixedAdd h (selectPoint pos (lget e (2 * pos + odd)))).ToExtended) h)
      (P + (∑ p ∈ Finset.range n, lget (e.map clip) (2 * p + odd) * 256 ^ p) • B)
  | 0, _ => by simpa using hh
  | n + 1, hn => by
    have ih := baseLoop_clip (odd := odd) hd hh n (by omega)
    rw [List.range_succ, List.foldl_append, List.foldl_cons, List.foldl_nil]
    have := (geMixedAdd_rep ih (selectPoint_clip (show n < 32 by omega) (hd (2 * n + odd)).1 (hd (2 * n + odd)).2)).toExtended
    have hc : clip (lget e (2 * n + odd)) = lget (e.map clip) (2 * n + odd) := by
      unfold lget
      rw [List.getD_eq_getElem?_getD, List.getD_eq_getElem?_getD, List.getElem?_map]
      cases e[2 * n + odd]? <;> rfl
    rw [hc] at this
    rw [Finset.sum_range_succ, add_zsmul, ← add_assoc]
    exact this

theorem dval_append (a b : List Int) : dval (a ++ b) = dval a + 16 ^ a.length * dval b := by
  induction a with
  | nil => simp [dval]
  | cons x a ih => simp only [List.cons_append, dval, ih, List.length_cons, pow_succ]; ring

/-- All digits but the last are between -8 and 7; the last is between 0 and 16. -/
theorem recode_shape : ∀ (es : List Int) (c : Int), 0 ≤ c → c ≤ 1 → (∀ e ∈ es, 0 ≤ e ∧ e ≤ 15) → es ≠ [] →
    ∃ init top, recode c es = init ++ [top] ∧ (∀ e ∈ init, -8 ≤ e ∧ e ≤ 7) ∧ 0 ≤ top ∧ top ≤ 16
  | [], _, _, _, _, h => absurd rfl h
  | [e], c, c0, c1, he, _ => by
    have := he e (by simp)
    have w : wrap 8 (e + c) = e + c := wrap_id (by norm_num; omega) (by norm_num; omega) (by decide)
    exact ⟨[], e + c, by simp only [recode, w]; rfl, by simp, by omega, by omega⟩
  | e :: e' :: es, c, c0, c1, he, _ => by
    have h0 := he e (by simp)
    have w1 : wrap 8 (e + c) = e + c := wrap_id (by norm_num; omega) (by norm_num; omega) (by decide)
    have w2 : wrap 8 (e + c + 8) = e + c + 8 := wrap_id (by norm_num; omega) (by norm_num; omega) (by decide)
    have hc : 0 ≤ (e + c + 8) / 16 ∧ (e + c + 8) / 16 ≤ 1 := by omega
    have w3 : wrap 8 ((e + c + 8) / 16 * 16) = (e + c + 8) / 16 * 16 := wrap_id (by norm_num; omega) (by norm_num; omega) (by decide)
    have w4 : wrap 8 (e + c - (e + c + 8) / 16 * 16) = e + c - (e + c + 8) / 16 * 16 :=
      wrap_id (by norm_num; omega) (by norm_num; omega) (by decide)
    have er : recode c (e :: e' :: es) = (e + c - (e + c + 8) / 16 * 16) :: recode ((e + c + 8) / 16) (e' :: es) := by
      simp only [recode, w1, w2, show (2 : Int) ^ 4 = 16 by norm_num, w3, w4]
    obtain ⟨init, top, i1, i2, i3⟩ := recode_shape (e' :: es) ((e + c + 8) / 16) hc.1 hc.2 (fun x hx => he x (by simp [hx])) (by simp)
    refine ⟨(e + c - (e + c + 8) / 16 * 16) :: init, top, by rw [er, i1]; rfl, ?_, i3⟩
    intro x hx
    rcases List.mem_cons.1 hx with rfl | hx
    · omega
    · exact i2 x hx

/-- The range of numbers with digits from -8 to 7. -/
theorem dval_range : ∀ (l : List Int), (∀ e ∈ l, -8 ≤ e ∧ e ≤ 7) → -8 * (16 ^ l.length - 1) ≤ 15 * dval l ∧ 15 * dval l ≤ 7 * (16 ^ l.length - 1)
  | [], _ => by simp [dval]
  | e :: l, h => by
    have := dval_range l (fun x hx => h x (by simp [hx]))
    have h0 := h e (by simp)
    simp only [dval, List.length_cons, pow_succ]
    constructor <;> omega

/-- `GeScalarMultBase` for all scalars: with `k = r + 16^63 * top`, where `r` has 63 digits between -8 and 7, the result is `k B` if `top`
is at most 8, and `r B` otherwise. -/
theorem GeScalarMultBase_all {a : Bytes} (ha : a.length = 32) :
    ∃ r top : Int, (leNat a : Int) = r + 16 ^ 63 * top ∧ 0 ≤ top ∧ top ≤ 16 ∧ -8 * (16 ^ 63 - 1) ≤ 15 * r ∧ 15 * r ≤ 7 * (16 ^ 63 - 1) ∧
      ExtRep (GeScalarMultBase a) ((r + 16 ^ 63 * clip top) • B) := by
  obtain ⟨n1, n2, n3⟩ := nibbles_spec a
  rw [ha] at n1
  have hne : nibbles a ≠ [] := by intro h; rw [h] at n1; simp at n1
  obtain ⟨r1, r2, -⟩ := recode_spec (nibbles a) 0 (by decide) (by decide) n3 hne
  obtain ⟨init, top, e1, e2, e3, e4⟩ := recode_shape (nibbles a) 0 (by decide) (by decide) n3 hne
  have hl : init.length = 63 := by
    have := r1
    rw [e1, n1, List.length_append] at this
    simp at this; omega
  have hd : ∀ i, -8 ≤ lget (recode 0 (nibbles a)) i ∧ lget (recode 0 (nibbles a)) i ≤ 16 := by
    intro i
    rcases lget_mem_or (recode 0 (nibbles a)) i with h | h
    · rw [e1] at h
      rcases List.mem_append.1 h with h | h
      · have := e2 _ h; rw [e1]; omega
      · rw [List.mem_singleton] at h; rw [e1, h]; omega
    · rw [h]; decide
  have hv := dval_pairs 32 ((recode 0 (nibbles a)).map clip) (by rw [List.length_map, r1, n1])
  have hclip : dval ((recode 0 (nibbles a)).map clip) = dval init + 16 ^ 63 * clip top := by
    rw [e1, List.map_append, dval_append]
    have : init.map clip = init := by
      refine (List.map_congr_left fun x hx => ?_).trans (List.map_id _)
      have := e2 x hx
      unfold clip; rw [if_pos (by omega)]; rfl
    rw [this, hl]
    simp [dval]
  have hk : (leNat a : Int) = dval init + 16 ^ 63 * top := by
    have h := r2
    rw [n2, e1, dval_append, hl] at h
    simp only [dval, mul_zero, add_zero] at h
    exact h.symm
  have hrange := dval_range init e2
  rw [hl] at hrange
  refine ⟨dval init, top, hk, e3, e4, hrange.1, hrange.2, ?_⟩
  rw [← hclip, hv]
  unfold GeScalarMultBase
  dsimp only
  clear hk hrange hclip hv n2 r2 e1 r1
  generalize recode 0 (nibbles a) = e at *
  have l1 : ExtRep (baseLoop e 1 Ext.Zero) _ := baseLoop_clip (odd := 1) hd zero_ext 32 (by decide)
  generalize baseLoop e 1 Ext.Zero = h at *
  rw [zero_add] at l1
  have d1 := (Ext.double_rep l1).toProjective
  have d2 := (Proj.double_rep d1).toProjective
  have d3 := (Proj.double_rep d2).toProjective
  have d4 := (Proj.double_rep d3).toExtended
  have l2 : ExtRep (baseLoop e 0 _) _ := baseLoop_clip (odd := 0) hd d4 32 (by decide)
  simp only [← add_zsmul] at l2
  rw [Finset.sum_add_distrib, ← Finset.mul_sum]
  refine Eq.mp ?_ l2
  congr 2
  simp only [Nat.add_zero]
  ring

end Cardano.Ed
