import Verif.Ed25519.FieldModel
import Verif.Ed25519.ScalarProof
import Mathlib.Data.ZMod.Basic
import Mathlib.Tactic.Linarith
/-!
# The field arithmetic computes modulo `2^255 - 19`
-/
set_option autoImplicit false

namespace Cardano.Ed

/-- The prime `2^255 - 19`. -/
def fieldP : Nat := 2 ^ 255 - 19

/-- Weights of the limbs (comment at edwards25519.go:12-15). -/
def feW : List Int := [1, 2 ^ 26, 2 ^ 51, 2 ^ 77, 2 ^ 102, 2 ^ 128, 2 ^ 153, 2 ^ 179, 2 ^ 204, 2 ^ 230]

/-- The integer represented by a field element. -/
def fval (x : FE) : Int := dot feW x

/-- The documented bounds `1.1*2^25, 1.1*2^24, ...` -/
def feB : List Nat := [36909875, 18454937, 36909875, 18454937, 36909875, 18454937, 36909875, 18454937, 36909875, 18454937]

/-- Ten limbs within `n` times the documented bounds. -/
def Bd (n : Nat) (x : FE) : Prop := AbsLe (feB.map (n * ·)) x

/-- `n` times the bounds, as intervals. -/
def ivB (n : Nat) : List Iv := feB.map (fun b => (-((n * b : Nat) : Int), ((n * b : Nat) : Int)))

theorem Bd.length {n : Nat} {x : FE} (h : Bd n x) : x.length = 10 := h.1

theorem Bd.within {n : Nat} {x : FE} (h : Bd n x) : Within (ivB n) x := by
  refine ⟨h.1, fun i hi => ?_⟩
  have := h.get i
  rw [h.length] at hi
  match i, hi with
  | 0, _ | 1, _ | 2, _ | 3, _ | 4, _ | 5, _ | 6, _ | 7, _ | 8, _ | 9, _ =>
    simp only [feB, ivB, bget, Iv.mem, List.map_cons, List.map_nil, List.getD_cons_succ, List.getD_cons_zero] at *
    omega

theorem lget_getElem (s : Limbs) (i : Nat) (h : i < s.length) : lget s i = s[i] := by
  unfold lget; simp [h]

theorem bget_getElem (s : List Iv) (i : Nat) (h : i < s.length) : bget s i = s[i] := by
  unfold bget; simp [h]

theorem feB_lt (i : Nat) : (feB.map (1 * ·)).getD i 0 < 2 ^ 31 := by
  by_cases h : i < 10
  · match i, h with
    | 0, _ | 1, _ | 2, _ | 3, _ | 4, _ | 5, _ | 6, _ | 7, _ | 8, _ | 9, _ => decide +kernel
  · rw [List.getD_eq_getElem?_getD, List.getElem?_eq_none (by simp only [feB, List.length_map, List.length_cons, List.length_nil]; omega)]; decide

theorem len10 {s : Limbs} (h : s.length = 10) : ∃ f0 f1 f2 f3 f4 f5 f6 f7 f8 f9, s = [f0, f1, f2, f3, f4, f5, f6, f7, f8, f9] := by
  match s, h with
  | [f0, f1, f2, f3, f4, f5, f6, f7, f8, f9], _ => exact ⟨f0, f1, f2, f3, f4, f5, f6, f7, f8, f9, rfl⟩

theorem Bd_iff {n : Nat} {f0 f1 f2 f3 f4 f5 f6 f7 f8 f9 : Int} : Bd n [f0, f1, f2, f3, f4, f5, f6, f7, f8, f9] ↔
    f0.natAbs ≤ n * 36909875 ∧ f1.natAbs ≤ n * 18454937 ∧ f2.natAbs ≤ n * 36909875 ∧ f3.natAbs ≤ n * 18454937 ∧
    f4.natAbs ≤ n * 36909875 ∧ f5.natAbs ≤ n * 18454937 ∧ f6.natAbs ≤ n * 36909875 ∧ f7.natAbs ≤ n * 18454937 ∧
    f8.natAbs ≤ n * 36909875 ∧ f9.natAbs ≤ n * 18454937 := by
  constructor
  · intro h
    exact ⟨h.get 0, h.get 1, h.get 2, h.get 3, h.get 4, h.get 5, h.get 6, h.get 7, h.get 8, h.get 9⟩
  · rintro ⟨h0, h1, h2, h3, h4, h5, h6, h7, h8, h9⟩
    refine ⟨rfl, fun i hi => ?_⟩
    match i, hi with
    | 0, _ => exact h0
    | 1, _ => exact h1
    | 2, _ => exact h2
    | 3, _ => exact h3
    | 4, _ => exact h4
    | 5, _ => exact h5
    | 6, _ => exact h6
    | 7, _ => exact h7
    | 8, _ => exact h8
    | 9, _ => exact h9

theorem Bd.of_within {n : Nat} {x : FE} (h : Within (ivB n) x) : Bd n x := by
  have hl : x.length = 10 := by rw [h.1]; simp only [ivB, List.length_map]; decide
  obtain ⟨f0, f1, f2, f3, f4, f5, f6, f7, f8, f9, rfl⟩ := len10 hl
  have key : ∀ (f : Int) (c : Nat), Iv.mem f (-((n * c : Nat) : Int), ((n * c : Nat) : Int)) → f.natAbs ≤ n * c := by
    intro f c h
    have a := h.1
    have b := h.2
    simp only at a b
    omega
  exact Bd_iff.2 ⟨key _ _ (h.get 0), key _ _ (h.get 1), key _ _ (h.get 2), key _ _ (h.get 3), key _ _ (h.get 4), key _ _ (h.get 5),
    key _ _ (h.get 6), key _ _ (h.get 7), key _ _ (h.get 8), key _ _ (h.get 9)⟩

theorem Bd.mono {m n : Nat} {x : FE} (h : Bd m x) (hmn : m ≤ n) : Bd n x := by
  obtain ⟨f0, f1, f2, f3, f4, f5, f6, f7, f8, f9, rfl⟩ := len10 h.length
  rw [Bd_iff] at *
  have key : ∀ (f : Int) (c : Nat), f.natAbs ≤ m * c → f.natAbs ≤ n * c := fun f c h =>
    Nat.le_trans h (Nat.mul_le_mul_right _ hmn)
  obtain ⟨h0, h1, h2, h3, h4, h5, h6, h7, h8, h9⟩ := h
  exact ⟨key _ _ h0, key _ _ h1, key _ _ h2, key _ _ h3, key _ _ h4, key _ _ h5, key _ _ h6, key _ _ h7, key _ _ h8, key _ _ h9⟩

/-- Weaker intervals. -/
def subIv (a b : List Iv) : Bool :=
  decide (a.length = b.length) && (List.range a.length).all (fun i => decide ((bget b i).1 ≤ (bget a i).1) && decide ((bget a i).2 ≤ (bget b i).2))

theorem Within.mono {a b : List Iv} {s : Limbs} (h : Within a s) (hab : subIv a b = true) : Within b s := by
  simp only [subIv, Bool.and_eq_true, decide_eq_true_eq, List.all_eq_true, List.mem_range] at hab
  refine ⟨h.1.trans hab.1, fun i hi => ?_⟩
  have h1 := hab.2 i (h.1 ▸ hi)
  have h2 := h.get i
  exact ⟨Int.le_trans h1.1 h2.1, Int.le_trans h2.2 h1.2⟩

/-! ## `FeCombine` -/

/-- The carries do not overflow from these intervals, and end within the documented bounds. -/
def combineOk (I : List Iv) : Bool := match bounds 64 I combineOps with
  | none => false
  | some J => subIv J (ivB 1)

theorem combine_spec' {I O : List Iv} {s : Limbs} (hO : subIv O (ivB 1) = true)
    (hI : (match bounds 64 I combineOps with | none => false | some J => subIv J O) = true) (hs : Within I s) :
    Within O (FeCombine s) ∧ (fieldP : Int) ∣ fval (FeCombine s) - dot feW s := by
  split at hI
  · cases hI
  rename_i J hJ
  obtain ⟨e, hw⟩ := bounds_sound (by decide) combineOps I J s hJ hs
  have ho := hw.mono hI
  have hb : Bd 1 (execZ s combineOps) := Bd.of_within (ho.mono hO)
  have hlen : s.length = 10 := by rw [← execZ_length combineOps s]; exact hb.length
  have e2 : FeCombine s = execZ s combineOps := by
    unfold FeCombine
    rw [e]
    apply List.ext_getElem (by simp)
    intro i h1 h2
    have := hb.get i
    simp only [List.getElem_map]
    rw [lget_getElem _ _ h2] at this
    exact wrap_natAbs (by decide) (Nat.lt_of_le_of_lt this (feB_lt i))
  rw [e2]
  exact ⟨ho, execZ_keeps combineOps s (by rw [hlen]; rfl) (by decide +kernel)⟩

theorem combine_spec {I : List Iv} {s : Limbs} (hI : combineOk I = true) (hs : Within I s) :
    Bd 1 (FeCombine s) ∧ (fieldP : Int) ∣ fval (FeCombine s) - dot feW s := by
  obtain ⟨a, b⟩ := combine_spec' (by decide +kernel) hI hs
  exact ⟨Bd.of_within a, b⟩

/-! ## Addition, subtraction, negation -/

theorem FeAdd_spec {m n : Nat} {a b : FE} (ha : Bd m a) (hb : Bd n b) (hmn : m + n ≤ 58) :
    Bd (m + n) (FeAdd a b) ∧ fval (FeAdd a b) = fval a + fval b := by
  obtain ⟨f0, f1, f2, f3, f4, f5, f6, f7, f8, f9, rfl⟩ := len10 ha.length
  obtain ⟨g0, g1, g2, g3, g4, g5, g6, g7, g8, g9, rfl⟩ := len10 hb.length
  rw [Bd_iff] at ha hb
  obtain ⟨a0, a1, a2, a3, a4, a5, a6, a7, a8, a9⟩ := ha
  obtain ⟨b0, b1, b2, b3, b4, b5, b6, b7, b8, b9⟩ := hb
  have hmB : ∀ x y : Int, ∀ c : Nat, c ≤ 36909875 → x.natAbs ≤ m * c → y.natAbs ≤ n * c →
      wrap 32 (x + y) = x + y ∧ (x + y).natAbs ≤ (m + n) * c := by
    intro x y c hc hx hy
    have h1 : (x + y).natAbs ≤ (m + n) * c := by rw [Nat.add_mul]; omega
    refine ⟨wrap_natAbs (by decide) ?_, h1⟩
    have := Nat.mul_le_mul hmn hc
    simp only [Nat.reduceSub, Nat.reducePow]
    omega
  unfold FeAdd
  simp only [List.zipWith_cons_cons, List.zipWith_nil_right]
  obtain ⟨e0, d0⟩ := hmB f0 g0 36909875 (by decide) a0 b0
  obtain ⟨e1, d1⟩ := hmB f1 g1 18454937 (by decide) a1 b1
  obtain ⟨e2, d2⟩ := hmB f2 g2 36909875 (by decide) a2 b2
  obtain ⟨e3, d3⟩ := hmB f3 g3 18454937 (by decide) a3 b3
  obtain ⟨e4, d4⟩ := hmB f4 g4 36909875 (by decide) a4 b4
  obtain ⟨e5, d5⟩ := hmB f5 g5 18454937 (by decide) a5 b5
  obtain ⟨e6, d6⟩ := hmB f6 g6 36909875 (by decide) a6 b6
  obtain ⟨e7, d7⟩ := hmB f7 g7 18454937 (by decide) a7 b7
  obtain ⟨e8, d8⟩ := hmB f8 g8 36909875 (by decide) a8 b8
  obtain ⟨e9, d9⟩ := hmB f9 g9 18454937 (by decide) a9 b9
  rw [e0, e1, e2, e3, e4, e5, e6, e7, e8, e9]
  refine ⟨Bd_iff.2 ⟨d0, d1, d2, d3, d4, d5, d6, d7, d8, d9⟩, ?_⟩
  simp only [fval, feW, dot]
  ring

theorem FeSub_spec {m n : Nat} {a b : FE} (ha : Bd m a) (hb : Bd n b) (hmn : m + n ≤ 58) :
    Bd (m + n) (FeSub a b) ∧ fval (FeSub a b) = fval a - fval b := by
  obtain ⟨f0, f1, f2, f3, f4, f5, f6, f7, f8, f9, rfl⟩ := len10 ha.length
  obtain ⟨g0, g1, g2, g3, g4, g5, g6, g7, g8, g9, rfl⟩ := len10 hb.length
  rw [Bd_iff] at ha hb
  obtain ⟨a0, a1, a2, a3, a4, a5, a6, a7, a8, a9⟩ := ha
  obtain ⟨b0, b1, b2, b3, b4, b5, b6, b7, b8, b9⟩ := hb
  have hmB : ∀ x y : Int, ∀ c : Nat, c ≤ 36909875 → x.natAbs ≤ m * c → y.natAbs ≤ n * c →
      wrap 32 (x - y) = x - y ∧ (x - y).natAbs ≤ (m + n) * c := by
    intro x y c hc hx hy
    have h1 : (x - y).natAbs ≤ (m + n) * c := by rw [Nat.add_mul]; omega
    refine ⟨wrap_natAbs (by decide) ?_, h1⟩
    have := Nat.mul_le_mul hmn hc
    simp only [Nat.reduceSub, Nat.reducePow]
    omega
  unfold FeSub
  simp only [List.zipWith_cons_cons, List.zipWith_nil_right]
  obtain ⟨e0, d0⟩ := hmB f0 g0 36909875 (by decide) a0 b0
  obtain ⟨e1, d1⟩ := hmB f1 g1 18454937 (by decide) a1 b1
  obtain ⟨e2, d2⟩ := hmB f2 g2 36909875 (by decide) a2 b2
  obtain ⟨e3, d3⟩ := hmB f3 g3 18454937 (by decide) a3 b3
  obtain ⟨e4, d4⟩ := hmB f4 g4 36909875 (by decide) a4 b4
  obtain ⟨e5, d5⟩ := hmB f5 g5 18454937 (by decide) a5 b5
  obtain ⟨e6, d6⟩ := hmB f6 g6 36909875 (by decide) a6 b6
  obtain ⟨e7, d7⟩ := hmB f7 g7 18454937 (by decide) a7 b7
  obtain ⟨e8, d8⟩ := hmB f8 g8 36909875 (by decide) a8 b8
  obtain ⟨e9, d9⟩ := hmB f9 g9 18454937 (by decide) a9 b9
  rw [e0, e1, e2, e3, e4, e5, e6, e7, e8, e9]
  refine ⟨Bd_iff.2 ⟨d0, d1, d2, d3, d4, d5, d6, d7, d8, d9⟩, ?_⟩
  simp only [fval, feW, dot]
  ring

theorem FeNeg_spec {n : Nat} {a : FE} (ha : Bd n a) (hn : n ≤ 58) : Bd n (FeNeg a) ∧ fval (FeNeg a) = -fval a := by
  obtain ⟨f0, f1, f2, f3, f4, f5, f6, f7, f8, f9, rfl⟩ := len10 ha.length
  rw [Bd_iff] at ha
  obtain ⟨a0, a1, a2, a3, a4, a5, a6, a7, a8, a9⟩ := ha
  have hmB : ∀ x : Int, ∀ c : Nat, c ≤ 36909875 → x.natAbs ≤ n * c → wrap 32 (-x) = -x ∧ (-x).natAbs ≤ n * c := by
    intro x c hc hx
    refine ⟨wrap_natAbs (by decide) ?_, by omega⟩
    have := Nat.mul_le_mul hn hc
    simp only [Nat.reduceSub, Nat.reducePow]
    omega
  unfold FeNeg
  simp only [List.map_cons, List.map_nil]
  obtain ⟨e0, d0⟩ := hmB f0 36909875 (by decide) a0
  obtain ⟨e1, d1⟩ := hmB f1 18454937 (by decide) a1
  obtain ⟨e2, d2⟩ := hmB f2 36909875 (by decide) a2
  obtain ⟨e3, d3⟩ := hmB f3 18454937 (by decide) a3
  obtain ⟨e4, d4⟩ := hmB f4 36909875 (by decide) a4
  obtain ⟨e5, d5⟩ := hmB f5 18454937 (by decide) a5
  obtain ⟨e6, d6⟩ := hmB f6 36909875 (by decide) a6
  obtain ⟨e7, d7⟩ := hmB f7 18454937 (by decide) a7
  obtain ⟨e8, d8⟩ := hmB f8 36909875 (by decide) a8
  obtain ⟨e9, d9⟩ := hmB f9 18454937 (by decide) a9
  rw [e0, e1, e2, e3, e4, e5, e6, e7, e8, e9]
  refine ⟨Bd_iff.2 ⟨d0, d1, d2, d3, d4, d5, d6, d7, d8, d9⟩, ?_⟩
  simp only [fval, feW, dot]
  ring

/-! ## Multiplication and squaring -/

/-- Intervals of the products, from bounds of the inputs. -/
def prodIv (l : List E) (b : List Nat) : List Iv :=
  l.map (fun e => match e.bound b with | none => ((0, 0) : Iv) | some n => (-(n : Int), (n : Int)))

def mulB : List Nat := feB.map (3 * ·) ++ feB.map (3 * ·)

theorem mul_exprs : mulLimbs.all (fun e => (e.bound mulB).isSome) = true := by decide +kernel
theorem mul_combine : combineOk (prodIv mulLimbs mulB) = true := by decide +kernel

theorem mul_value {f g : FE} (hf : f.length = 10) (hg : g.length = 10) :
    (fieldP : Int) ∣ dot feW (mulLimbs.map (E.evalZ (f ++ g))) - fval f * fval g := by
  obtain ⟨f0, f1, f2, f3, f4, f5, f6, f7, f8, f9, rfl⟩ := len10 hf
  obtain ⟨g0, g1, g2, g3, g4, g5, g6, g7, g8, g9, rfl⟩ := len10 hg
  refine ⟨-(2 ^ 1 * (f1 * g9) + 2 ^ 0 * (f2 * g8) + 2 ^ 26 * (f2 * g9) + 2 ^ 1 * (f3 * g7) + 2 ^ 26 * (f3 * g8) + 2 ^ 52 * (f3 * g9) + 2 ^ 0 * (f4 * g6) + 2 ^ 26 * (f4 * g7) + 2 ^ 51 * (f4 * g8) + 2 ^ 77 * (f4 * g9) + 2 ^ 1 * (f5 * g5) + 2 ^ 26 * (f5 * g6) + 2 ^ 52 * (f5 * g7) + 2 ^ 77 * (f5 * g8) + 2 ^ 103 * (f5 * g9) + 2 ^ 0 * (f6 * g4) + 2 ^ 26 * (f6 * g5) + 2 ^ 51 * (f6 * g6) + 2 ^ 77 * (f6 * g7) + 2 ^ 102 * (f6 * g8) + 2 ^ 128 * (f6 * g9) + 2 ^ 1 * (f7 * g3) + 2 ^ 26 * (f7 * g4) + 2 ^ 52 * (f7 * g5) + 2 ^ 77 * (f7 * g6) + 2 ^ 103 * (f7 * g7) + 2 ^ 128 * (f7 * g8) + 2 ^ 154 * (f7 * g9) + 2 ^ 0 * (f8 * g2) + 2 ^ 26 * (f8 * g3) + 2 ^ 51 * (f8 * g4) + 2 ^ 77 * (f8 * g5) + 2 ^ 102 * (f8 * g6) + 2 ^ 128 * (f8 * g7) + 2 ^ 153 * (f8 * g8) + 2 ^ 179 * (f8 * g9) + 2 ^ 1 * (f9 * g1) + 2 ^ 26 * (f9 * g2) + 2 ^ 52 * (f9 * g3) + 2 ^ 77 * (f9 * g4) + 2 ^ 103 * (f9 * g5) + 2 ^ 128 * (f9 * g6) + 2 ^ 154 * (f9 * g7) + 2 ^ 179 * (f9 * g8) + 2 ^ 205 * (f9 * g9)), ?_⟩
  have hp : (fieldP : Int) = 2 ^ 255 - 19 := by decide +kernel
  rw [hp]
  simp only [mulLimbs, List.map_cons, List.map_nil, List.cons_append, List.nil_append, dot, lget, fval, feW,
      E.evalZ, Nat.reduceAdd, List.getD_cons_zero, List.getD_cons_succ]
  ring

/-- Inputs may be up to three times the documented bounds. -/
theorem FeMul_spec {f g : FE} (hf : Bd 3 f) (hg : Bd 3 g) :
    Bd 1 (FeMul f g) ∧ (fieldP : Int) ∣ fval (FeMul f g) - fval f * fval g := by
  obtain ⟨e, w⟩ := evals_ok (AbsLe.append hf hg) mulLimbs mul_exprs
  unfold FeMul
  rw [e]
  obtain ⟨b, d⟩ := combine_spec mul_combine w
  refine ⟨b, ?_⟩
  have := Int.dvd_add d (mul_value hf.length hg.length)
  rwa [show ∀ a b c : Int, a - b + (b - c) = a - c by intros; omega] at this

theorem square_exprs : squareLimbs.all (fun e => (e.bound (feB.map (3 * ·))).isSome) = true := by decide +kernel
theorem square_combine : combineOk (prodIv squareLimbs (feB.map (3 * ·))) = true := by decide +kernel

theorem square_value {f : FE} (hf : f.length = 10) :
    (fieldP : Int) ∣ dot feW (squareLimbs.map (E.evalZ f)) - fval f * fval f := by
  obtain ⟨f0, f1, f2, f3, f4, f5, f6, f7, f8, f9, rfl⟩ := len10 hf
  refine ⟨-(2 ^ 1 * (f1 * f9) + 2 ^ 0 * (f2 * f8) + 2 ^ 26 * (f2 * f9) + 2 ^ 1 * (f3 * f7) + 2 ^ 26 * (f3 * f8) + 2 ^ 52 * (f3 * f9) + 2 ^ 0 * (f4 * f6) + 2 ^ 26 * (f4 * f7) + 2 ^ 51 * (f4 * f8) + 2 ^ 77 * (f4 * f9) + 2 ^ 1 * (f5 * f5) + 2 ^ 26 * (f5 * f6) + 2 ^ 52 * (f5 * f7) + 2 ^ 77 * (f5 * f8) + 2 ^ 103 * (f5 * f9) + 2 ^ 0 * (f6 * f4) + 2 ^ 26 * (f6 * f5) + 2 ^ 51 * (f6 * f6) + 2 ^ 77 * (f6 * f7) + 2 ^ 102 * (f6 * f8) + 2 ^ 128 * (f6 * f9) + 2 ^ 1 * (f7 * f3) + 2 ^ 26 * (f7 * f4) + 2 ^ 52 * (f7 * f5) + 2 ^ 77 * (f7 * f6) + 2 ^ 103 * (f7 * f7) + 2 ^ 128 * (f7 * f8) + 2 ^ 154 * (f7 * f9) + 2 ^ 0 * (f8 * f2) + 2 ^ 26 * (f8 * f3) + 2 ^ 51 * (f8 * f4) + 2 ^ 77 * (f8 * f5) + 2 ^ 102 * (f8 * f6) + 2 ^ 128 * (f8 * f7) + 2 ^ 153 * (f8 * f8) + 2 ^ 179 * (f8 * f9) + 2 ^ 1 * (f9 * f1) + 2 ^ 26 * (f9 * f2) + 2 ^ 52 * (f9 * f3) + 2 ^ 77 * (f9 * f4) + 2 ^ 103 * (f9 * f5) + 2 ^ 128 * (f9 * f6) + 2 ^ 154 * (f9 * f7) + 2 ^ 179 * (f9 * f8) + 2 ^ 205 * (f9 * f9)), ?_⟩
  have hp : (fieldP : Int) = 2 ^ 255 - 19 := by decide +kernel
  rw [hp]
  simp only [squareLimbs, List.map_cons, List.map_nil, dot, lget, fval, feW,
      E.evalZ, List.getD_cons_zero, List.getD_cons_succ]
  ring

theorem FeSquare_spec {f : FE} (hf : Bd 3 f) :
    Bd 1 (FeSquare f) ∧ (fieldP : Int) ∣ fval (FeSquare f) - fval f * fval f := by
  obtain ⟨e, w⟩ := evals_ok hf squareLimbs square_exprs
  unfold FeSquare
  rw [e]
  obtain ⟨b, d⟩ := combine_spec square_combine w
  refine ⟨b, ?_⟩
  have := Int.dvd_add d (square_value hf.length)
  rwa [show ∀ a b c : Int, a - b + (b - c) = a - c by intros; omega] at this

/-- The bounds `1.65*2^26, 1.65*2^25, ...` of the comment of `FeSquare2`. -/
def sq2B : List Nat := [110729625, 55364812, 110729625, 55364812, 110729625, 55364812, 110729625, 55364812, 110729625, 55364812]

def square2Iv : List Iv := (prodIv squareLimbs sq2B).map (fun b => (b.1 + b.1, b.2 + b.2))

/-- The bounds `1.01*2^25, 1.01*2^24, ...` of the comment of `FeSquare2`. -/
def sq2Out : List Iv := [(-33889976, 33889976), (-16944988, 16944988), (-33889976, 33889976), (-16944988, 16944988),
  (-33889976, 33889976), (-16944988, 16944988), (-33889976, 33889976), (-16944988, 16944988), (-33889976, 33889976),
  (-16944988, 16944988)]

theorem square2_exprs : squareLimbs.all (fun e => (e.bound sq2B).isSome) = true := by decide +kernel
theorem square2_fits : square2Iv.all (fits 64) = true := by decide +kernel
theorem square2_combine : (match bounds 64 square2Iv combineOps with | none => false | some J => subIv J sq2Out) = true := by
  decide +kernel

theorem sq2Out_sub : subIv sq2Out (ivB 1) = true := by decide +kernel

theorem doubled_within : ∀ {I : List Iv} {s : Limbs}, Within I s →
    Within (I.map (fun b => (b.1 + b.1, b.2 + b.2))) (s.map (fun h => h + h)) := by
  intro I s h
  refine ⟨by simpa using h.1, fun i hi => ?_⟩
  have hi' : i < s.length := by simpa using hi
  have hiI : i < I.length := h.1 ▸ hi'
  have := h.2 i hi'
  simp only [lget, bget, Iv.mem, List.getD_eq_getElem?_getD, List.getElem?_map, List.getElem?_eq_getElem hi',
    List.getElem?_eq_getElem hiI, Option.map_some, Option.getD_some] at *
  omega

theorem dot_double (w : List Int) (s : Limbs) : dot w (s.map (fun h => h + h)) = 2 * dot w s := by
  induction w generalizing s with
  | nil => simp [dot]
  | cons a w ih =>
    cases s with
    | nil => simp [dot]
    | cons x s => simp only [List.map_cons, dot, ih]; ring

theorem FeSquare2_spec' {f : FE} (hf : AbsLe sq2B f) :
    Within sq2Out (FeSquare2 f) ∧ (fieldP : Int) ∣ fval (FeSquare2 f) - 2 * (fval f * fval f) := by
  obtain ⟨e, w⟩ := evals_ok hf squareLimbs square2_exprs
  have w2 := doubled_within w
  unfold FeSquare2
  rw [e]
  have e2 : (squareLimbs.map (E.evalZ f)).map (fun h => wrap 64 (h + h)) = (squareLimbs.map (E.evalZ f)).map (fun h => h + h) := by
    apply List.ext_getElem (by simp)
    intro i h1 h2
    have hm := w2.get i
    have hf := List.all_eq_true.1 square2_fits
    have hi : i < square2Iv.length := by
      have := w2.1
      simp only [List.length_map] at h2 this ⊢
      simpa [square2Iv, prodIv] using h2
    have hf := hf _ (List.getElem_mem hi)
    rw [lget_getElem _ _ h2] at hm
    have hm' : Iv.mem ((squareLimbs.map (E.evalZ f)).map (fun h => h + h))[i] (bget square2Iv i) := hm
    rw [bget_getElem _ _ hi] at hm'
    have := fits_wrap hf hm' (by decide)
    simpa using this
  rw [e2]
  obtain ⟨b, d⟩ := combine_spec' sq2Out_sub square2_combine w2
  refine ⟨b, ?_⟩
  rw [dot_double] at d
  have := Int.dvd_add d (Dvd.dvd.mul_left (square_value hf.1) 2)
  rwa [show ∀ a b c : Int, a - 2 * b + 2 * (b - c) = a - 2 * c by intros; omega] at this

theorem FeSquare2_spec {f : FE} (hf : Bd 3 f) :
    Bd 1 (FeSquare2 f) ∧ (fieldP : Int) ∣ fval (FeSquare2 f) - 2 * (fval f * fval f) := by
  have h : AbsLe sq2B f := by
    obtain ⟨f0, f1, f2, f3, f4, f5, f6, f7, f8, f9, rfl⟩ := len10 hf.length
    obtain ⟨b0, b1, b2, b3, b4, b5, b6, b7, b8, b9⟩ := Bd_iff.1 hf
    refine ⟨rfl, fun i hi => ?_⟩
    match i, hi with
    | 0, _ => exact b0
    | 1, _ => exact Nat.le_trans b1 (by decide)
    | 2, _ => exact b2
    | 3, _ => exact Nat.le_trans b3 (by decide)
    | 4, _ => exact b4
    | 5, _ => exact Nat.le_trans b5 (by decide)
    | 6, _ => exact b6
    | 7, _ => exact Nat.le_trans b7 (by decide)
    | 8, _ => exact b8
    | 9, _ => exact Nat.le_trans b9 (by decide)
  obtain ⟨b, d⟩ := FeSquare2_spec' h
  exact ⟨Bd.of_within (b.mono sq2Out_sub), d⟩

end Cardano.Ed
