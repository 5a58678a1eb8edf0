import Verif.Ed25519.Bits
import Mathlib.Tactic.Ring
/-!
# `ScReduce` and `ScMulAdd` compute modulo the group order
-/
set_option autoImplicit false

namespace Cardano.Ed

/-- The order of the base point, `2^252 + 27742317777372353535851937790883648493` (comment at edwards25519.go:1456). -/
def groupOrder : Nat := 2 ^ 252 + 27742317777372353535851937790883648493

/-! ## Bounds of weighted sums -/

theorem dot_le : ∀ (w : List Int) (b : List Iv) (s : Limbs), (∀ x ∈ w, 0 ≤ x) → Within b s →
    dot w (b.map Prod.fst) ≤ dot w s ∧ dot w s ≤ dot w (b.map Prod.snd)
  | [], b, s, _, _ => by simp [dot]
  | w :: ws, [], s, _, h => by
    have : s = [] := List.length_eq_zero_iff.1 h.1
    subst this; simp [dot]
  | w :: ws, i :: b, [], _, h => by have := h.1; simp at this
  | w :: ws, i :: b, x :: s, hw, h => by
    have ih := dot_le ws b s (fun y hy => hw y (by simp [hy]))
      ⟨by have := h.1; simpa using this, fun j hj => by have := h.2 (j + 1) (by simpa using hj); simpa [lget, bget] using this⟩
    have h0 := h.2 0 (by simp)
    simp only [lget, bget, List.getD_cons_zero, Iv.mem] at h0
    have hw0 := hw w (by simp)
    simp only [List.map_cons, dot]
    have a1 := Int.mul_le_mul_of_nonneg_left h0.1 hw0
    have a2 := Int.mul_le_mul_of_nonneg_left h0.2 hw0
    omega

theorem w21_nonneg (n : Nat) : ∀ x ∈ w21 n, 0 ≤ x := by
  intro x hx
  simp only [w21, List.mem_map] at hx
  obtain ⟨i, _, rfl⟩ := hx
  exact Int.pow_nonneg (by decide)

/-- Exact effect of a reduction on the weighted sum. -/
theorem stepZ_fold_dot {w : List Int} {s : Limbs} {j : Nat} {l : List (Nat × Int)} (hl : s.length = w.length) (hj : j < s.length)
    (ha : ∀ p ∈ l, p.1 ≠ j ∧ p.1 < s.length) :
    dot w (stepZ s (.fold j l)) = dot w s + (weightSum w l - lget w j) * lget s j := by
  have := addMulsZ_dot w (lget s j) j l s hl ha
  simp only [stepZ]
  rw [dot_set _ _ _ _ (by rw [addMulsZ_length]; exact hj) (hl ▸ hj), this.1, this.2]
  ring

/-! ## The last two carry chains -/

theorem len24 {s : Limbs} (h : s.length = 24) : s = [lget s 0, lget s 1, lget s 2, lget s 3, lget s 4, lget s 5, lget s 6,
    lget s 7, lget s 8, lget s 9, lget s 10, lget s 11, lget s 12, lget s 13, lget s 14, lget s 15, lget s 16, lget s 17,
    lget s 18, lget s 19, lget s 20, lget s 21, lget s 22, lget s 23] := by
  match s, h with
  | [_, _, _, _, _, _, _, _, _, _, _, _, _, _, _, _, _, _, _, _, _, _, _, _], _ => rfl

/-- Value of the first twelve limbs. -/
def low12 (s : Limbs) : Int := dot (w21 12) [lget s 0, lget s 1, lget s 2, lget s 3, lget s 4, lget s 5, lget s 6, lget s 7,
      lget s 8, lget s 9, lget s 10, lget s 11]

theorem dot_low12 {s : Limbs} (h : s.length = 24) (hz : ∀ i, 12 < i → lget s i = 0) :
    dot (w21 24) s = low12 s + 2 ^ 252 * lget s 12 := by
  have h1 : w21 24 = w21 12 ++ (w21 24).drop 12 := by decide +kernel
  have h2 : w21 12 = [1, 2^21, 2^42, 2^63, 2^84, 2^105, 2^126, 2^147, 2^168, 2^189, 2^210, 2^231] := by decide +kernel
  have h3 : (w21 24).drop 12 = [2^252, 2^273, 2^294, 2^315, 2^336, 2^357, 2^378, 2^399, 2^420, 2^441, 2^462, 2^483] := by
    decide +kernel
  rw [h1, h2, h3]
  unfold low12
  rw [h2]
  conv => lhs; rw [len24 h]
  simp only [hz 13 (by decide), hz 14 (by decide), hz 15 (by decide), hz 16 (by decide), hz 17 (by decide), hz 18 (by decide),
    hz 19 (by decide), hz 20 (by decide), hz 21 (by decide), hz 22 (by decide), hz 23 (by decide), List.cons_append,
    List.nil_append, dot]
  ring

/-- Intervals with limbs `0..n-1` of 21 bits and zero from limb `13` on. -/
def tidy (n : Nat) (b : List Iv) : Bool :=
  decide (b.length = 24) && (List.range n).all (fun i => decide (bget b i = (0, 2 ^ 21 - 1))) &&
    (List.range 11).all (fun i => decide (bget b (13 + i) = (0, 0)))

theorem tidy_spec {n : Nat} {b : List Iv} {s : Limbs} (h : tidy n b = true) (hs : Within b s) :
    s.length = 24 ∧ (∀ i, i < n → 0 ≤ lget s i ∧ lget s i < 2 ^ 21) ∧ ∀ i, 12 < i → lget s i = 0 := by
  simp only [tidy, Bool.and_eq_true, decide_eq_true_eq, List.all_eq_true, List.mem_range] at h
  obtain ⟨⟨h1, h2⟩, h3⟩ := h
  have hl : s.length = 24 := hs.1.trans h1
  refine ⟨hl, fun i hi => ?_, fun i hi => ?_⟩
  · have := hs.get i
    rw [h2 i hi] at this
    exact ⟨this.1, by have := this.2; simp only at this; omega⟩
  · by_cases h24 : i < 24
    · have := hs.get i
      have e := h3 (i - 13) (by omega)
      rw [show 13 + (i - 13) = i by omega] at e
      rw [e] at this
      have a := this.1
      have b := this.2
      simp only at a b
      omega
    · unfold lget; simp [List.getElem?_eq_none (by omega : s.length ≤ i)]

theorem low12_range {s : Limbs} (h : ∀ i, i < 12 → 0 ≤ lget s i ∧ lget s i < 2 ^ 21) : 0 ≤ low12 s ∧ low12 s < 2 ^ 252 := by
  have h2 : w21 12 = [1, 2^21, 2^42, 2^63, 2^84, 2^105, 2^126, 2^147, 2^168, 2^189, 2^210, 2^231] := by decide +kernel
  have b0 := h 0 (by decide)
  have b1 := h 1 (by decide)
  have b2 := h 2 (by decide)
  have b3 := h 3 (by decide)
  have b4 := h 4 (by decide)
  have b5 := h 5 (by decide)
  have b6 := h 6 (by decide)
  have b7 := h 7 (by decide)
  have b8 := h 8 (by decide)
  have b9 := h 9 (by decide)
  have b10 := h 10 (by decide)
  have b11 := h 11 (by decide)
  unfold low12
  rw [h2]
  simp only [dot]
  omega

/-- The top limb is bounded by the value when the others are in range. -/
theorem low12_top {s : Limbs} (h : ∀ i, i < 11 → 0 ≤ lget s i ∧ lget s i < 2 ^ 21) (h0 : 0 ≤ low12 s) (h1 : low12 s < 2 ^ 253) :
    0 ≤ lget s 11 ∧ lget s 11 < 2 ^ 22 := by
  have h2 : w21 12 = [1, 2^21, 2^42, 2^63, 2^84, 2^105, 2^126, 2^147, 2^168, 2^189, 2^210, 2^231] := by decide +kernel
  have b0 := h 0 (by decide)
  have b1 := h 1 (by decide)
  have b2 := h 2 (by decide)
  have b3 := h 3 (by decide)
  have b4 := h 4 (by decide)
  have b5 := h 5 (by decide)
  have b6 := h 6 (by decide)
  have b7 := h 7 (by decide)
  have b8 := h 8 (by decide)
  have b9 := h 9 (by decide)
  have b10 := h 10 (by decide)
  unfold low12 at h0 h1
  rw [h2] at h0 h1
  simp only [dot] at h0 h1
  omega

theorem exec_append (w : Nat) (s : Limbs) (p q : List Op) : exec w s (p ++ q) = exec w (exec w s p) q := by
  simp [exec]

/-- What the end of both functions needs to know about the limbs it starts from. -/
def tailOk (B : List Iv) : Bool :=
  decide (B.length = 24) && decide (-(2 ^ 252) ≤ dot (w21 24) (B.map Prod.fst)) && decide (dot (w21 24) (B.map Prod.snd) < 2 ^ 252)
  && match bounds 64 B scChain with
    | none => false
    | some B2 => tidy 12 B2 && match bounds 64 (B2.set 12 (-1, 0)) scLast with
      | none => false
      | some B3 => tidy 11 B3 && decide (bget B3 12 = (0, 0))

/-- From limbs in suitable intervals, the two carry chains and the packing give the reduced value. -/
theorem sc_tail {B : List Iv} {s : Limbs} (hB : tailOk B = true) (hs : Within B s) :
    (leNat (packScalar (exec 64 s (scChain ++ scLast))) : Int) = dot (w21 24) s % groupOrder := by
  simp only [tailOk, Bool.and_eq_true, decide_eq_true_eq] at hB
  obtain ⟨⟨⟨hlen, hlo⟩, hhi⟩, hB⟩ := hB
  split at hB
  · cases hB
  rename_i B2 hB2
  simp only [Bool.and_eq_true] at hB
  obtain ⟨t2, hB⟩ := hB
  split at hB
  · cases hB
  rename_i B3 hB3
  simp only [Bool.and_eq_true, decide_eq_true_eq] at hB
  obtain ⟨t3, t12⟩ := hB
  have hsl : s.length = 24 := hs.1.trans hlen
  -- the value before the chain
  have hv := dot_le (w21 24) B s (w21_nonneg 24) hs
  have v1 : -(2 ^ 252) ≤ dot (w21 24) s := Int.le_trans hlo hv.1
  have v2 : dot (w21 24) s < 2 ^ 252 := Int.lt_of_le_of_lt hv.2 hhi
  -- the chain
  obtain ⟨e1, hw2⟩ := bounds_sound (by decide) scChain B B2 s hB2 hs
  have k1 : dot (w21 24) (execZ s scChain) = dot (w21 24) s := by
    have := execZ_keeps (w := w21 24) (M := 0) scChain s (by rw [hsl]; rfl) (by decide +kernel)
    have := Int.zero_dvd.1 this
    omega
  generalize execZ s scChain = s2 at *
  obtain ⟨l2, r2, z2⟩ := tidy_spec t2 hw2
  have d2 := dot_low12 l2 z2
  have q2 := low12_range r2
  rw [k1] at d2
  have h12 : lget s2 12 = -1 ∨ lget s2 12 = 0 := by omega
  -- the last reduction
  have hw2' : Within (B2.set 12 (-1, 0)) s2 := by
    have := hw2.set (i := 12) (x := lget s2 12) (q := (-1, 0)) (by simp only [Iv.mem]; omega)
    have e : s2.set 12 (lget s2 12) = s2 := by
      conv => lhs; rw [len24 l2]
      conv => rhs; rw [len24 l2]
      rfl
    rwa [e] at this
  obtain ⟨e2, hw3⟩ := bounds_sound (by decide) scLast (B2.set 12 (-1, 0)) B3 s2 hB3 hw2'
  have k2 : dot (w21 24) (execZ s2 scLast) = dot (w21 24) s2 - groupOrder * lget s2 12 := by
    have e : execZ s2 scLast = execZ (stepZ s2 (red 12)) ([0, 1, 2, 3, 4, 5, 6, 7, 8, 9, 10].map fl) := by
      simp only [scLast, execZ, List.foldl_append, List.foldl_cons, List.foldl_nil]
    have l : (stepZ s2 (red 12)).length = (w21 24).length := by rw [stepZ_length, l2]; rfl
    have := execZ_keeps (w := w21 24) (M := 0) ([0, 1, 2, 3, 4, 5, 6, 7, 8, 9, 10].map fl) (stepZ s2 (red 12)) l
      (by decide +kernel)
    have h0 := Int.zero_dvd.1 this
    have h1 : dot (w21 24) (stepZ s2 (red 12)) = dot (w21 24) s2 +
        (weightSum (w21 24) [(0, 666643), (1, 470296), (2, 654183), (3, -997805), (4, 136657), (5, -683901)] - lget (w21 24) 12)
          * lget s2 12 := by
      apply stepZ_fold_dot
      · rw [l2]; rfl
      · rw [l2]; decide
      · rw [l2]; decide
    have h2 : weightSum (w21 24) [(0, 666643), (1, 470296), (2, 654183), (3, -997805), (4, 136657), (5, -683901)]
        - lget (w21 24) 12 = -(groupOrder : Int) := by decide +kernel
    rw [e]
    rw [h2] at h1
    rw [Int.neg_mul] at h1
    omega
  generalize hs3 : execZ s2 scLast = s3 at *
  obtain ⟨l3, r3, z3⟩ := tidy_spec t3 hw3
  have z12 : lget s3 12 = 0 := by
    have := hw3.get 12
    rw [t12] at this
    have a := this.1
    have b := this.2
    simp only at a b
    omega
  have d3 := dot_low12 l3 z3
  rw [z12] at d3
  have hg : (groupOrder : Int) = 2 ^ 252 + 27742317777372353535851937790883648493 := rfl
  have val : low12 s3 = dot (w21 24) s % groupOrder := by
    rcases h12 with h | h
    · rw [h] at d2 k2
      have e : low12 s3 = dot (w21 24) s + groupOrder := by omega
      rw [e, ← Int.add_emod_right]
      symm; apply Int.emod_eq_of_lt <;> omega
    · rw [h] at d2 k2
      have e : low12 s3 = dot (w21 24) s := by omega
      rw [e]
      symm; apply Int.emod_eq_of_lt <;> omega
  have rng : 0 ≤ low12 s3 ∧ low12 s3 < 2 ^ 253 := by
    rw [val]
    have a := Int.emod_nonneg (dot (w21 24) s) (by omega : (groupOrder : Int) ≠ 0)
    have b := Int.emod_lt_of_pos (dot (w21 24) s) (by omega : (0 : Int) < groupOrder)
    omega
  have top := low12_top r3 rng.1 rng.2
  rw [exec_append, e1, e2, packScalar_eq r3 ⟨top.1, by omega⟩]
  exact val

/-! ## `ScReduce` -/

/-- Intervals of the limbs `ScReduce` starts from. -/
def initReduce : List Iv := List.replicate 23 (0, 2 ^ 21 - 1) ++ [(0, 2 ^ 29 - 1)]

theorem reduce_bounds : (match bounds 64 initReduce scMain with | none => false | some B => tailOk B) = true := by
  decide +kernel

theorem cut_within (n : Nat) : ∀ (x : Nat) (hi : Nat), x < 2 ^ (21 * n) * (hi + 1) →
    Within (List.replicate n ((0, 2 ^ 21 - 1) : Iv) ++ [((0, (hi : Int)) : Iv)]) (cut n x) := by
  induction n with
  | zero =>
    intro x hi h
    refine ⟨rfl, fun i hi' => ?_⟩
    have : i = 0 := by simp [cut] at hi'; omega
    subst this
    simp only [cut, lget, bget, List.replicate_zero, List.nil_append, List.getD_cons_zero, Iv.mem]
    omega
  | succ n ih =>
    intro x hi h
    have hd : x / 2 ^ 21 < 2 ^ (21 * n) * (hi + 1) := by
      apply Nat.div_lt_of_lt_mul
      rw [← Nat.mul_assoc, ← Nat.pow_add, show 21 + 21 * n = 21 * (n + 1) by omega]; exact h
    have := ih _ _ hd
    refine ⟨by simp [cut, cut_length], fun i hi' => ?_⟩
    cases i with
    | zero =>
      simp only [cut, lget, bget, List.replicate_succ, List.cons_append, List.getD_cons_zero, Iv.mem]
      omega
    | succ i =>
      have := this.2 i (by simpa [cut] using hi')
      simpa [cut, lget, bget, List.replicate_succ] using this

theorem ScReduce_eq {s : Bytes} (h : s.length = 64) : leNat (ScReduce s) = leNat s % groupOrder := by
  have hb := reduce_bounds
  split at hb
  · cases hb
  rename_i B hB
  have hl := leNat_lt s
  rw [h] at hl
  have hw : Within initReduce (limbs64 s) := by
    rw [limbs64_eq h]
    apply cut_within 23 _ (2 ^ 29 - 1)
    refine Nat.lt_of_lt_of_eq hl ?_
    decide +kernel
  have hlen : (limbs64 s).length = 24 := rfl
  obtain ⟨e, hw2⟩ := bounds_sound (by decide) scMain _ B _ hB hw
  have k := execZ_keeps (w := w21 24) (M := groupOrder) scMain (limbs64 s) (by rw [hlen]; rfl) (by decide +kernel)
  have t := sc_tail hb hw2
  have d : dot (w21 24) (limbs64 s) = leNat s := by rw [limbs64_eq h]; exact dot_cut 23 _
  unfold ScReduce
  rw [List.append_assoc, exec_append, e]
  have := Int.emod_emod_of_dvd
  have e2 : dot (w21 24) (execZ (limbs64 s) scMain) % groupOrder = leNat s % groupOrder := by
    rw [← d]; exact Int.emod_eq_emod_iff_emod_sub_eq_zero.2 (Int.emod_eq_zero_of_dvd k)
  rw [e2] at t
  exact_mod_cast t

theorem packScalar_length (s : Limbs) : (packScalar s).length = 32 := rfl

theorem ScReduce_length (s : Bytes) : (ScReduce s).length = 32 := rfl

/-! ## `ScMulAdd` -/

/-- Absolute bounds of the limbs of the three inputs. -/
def initMulAdd : List Nat :=
  let l := List.replicate 11 (2 ^ 21 - 1) ++ [2 ^ 25 - 1]
  l ++ l ++ l

/-- Intervals of the products. -/
def mulAddIv : List Iv := mulAddLimbs.map (fun e => match e.bound initMulAdd with
  | none => ((0, 0) : Iv)
  | some n => (-(n : Int), (n : Int))) ++ [(0, 0)]

theorem mulAdd_exprs : mulAddLimbs.all (fun e => (e.bound initMulAdd).isSome) = true := by decide +kernel

theorem mulAdd_bounds :
    (match bounds 64 mulAddIv (mulAddCarries ++ scMain) with | none => false | some B => tailOk B) = true := by
  decide +kernel

theorem cut_absLe (n x hi : Nat) (h : x < 2 ^ (21 * n) * (hi + 1)) :
    AbsLe (List.replicate n (2 ^ 21 - 1) ++ [hi]) (cut n x) := by
  have hw := cut_within n x hi h
  refine ⟨by have := hw.1; simpa using this, fun i hi' => ?_⟩
  have := hw.2 i hi'
  rw [cut_length] at hi'
  by_cases hin : i < n
  · simp only [bget, Iv.mem, List.getD_eq_getElem?_getD, List.getElem?_append, List.length_replicate, hin, if_true,
      List.getElem?_replicate] at this ⊢
    simp only [Option.getD_some] at this ⊢
    omega
  · have : i = n := by omega
    subst this
    simp only [bget, Iv.mem, List.getD_eq_getElem?_getD, List.getElem?_append, List.length_replicate, Nat.lt_irrefl, if_false,
      Nat.sub_self, List.getElem?_cons_zero, Option.getD_some] at *
    omega

theorem AbsLe.append {a b : List Nat} {s t : Limbs} (h1 : AbsLe a s) (h2 : AbsLe b t) : AbsLe (a ++ b) (s ++ t) := by
  refine ⟨by simp [h1.1, h2.1], fun i _ => ?_⟩
  by_cases hi : i < s.length
  · have := h1.2 i hi
    simp only [lget, List.getD_eq_getElem?_getD, List.getElem?_append, hi, ← h1.1, if_true] at *
    exact this
  · have := h2.get (i - s.length)
    simp only [lget, List.getD_eq_getElem?_getD, List.getElem?_append, hi, ← h1.1, if_false] at *
    exact this

/-- Values of expressions which pass the bound check, and their intervals. -/
theorem evals_ok {b : List Nat} {x : Limbs} (hx : AbsLe b x) : ∀ (l : List E), l.all (fun e => (e.bound b).isSome) = true →
    l.map (E.eval x) = l.map (E.evalZ x) ∧
    Within (l.map (fun e => match e.bound b with | none => ((0, 0) : Iv) | some n => (-(n : Int), (n : Int)))) (l.map (E.evalZ x))
  | [], _ => ⟨rfl, rfl, fun i hi => by simp at hi⟩
  | e :: l, h => by
    simp only [List.all_cons, Bool.and_eq_true] at h
    obtain ⟨n, hn⟩ := Option.isSome_iff_exists.1 h.1
    obtain ⟨e1, b1⟩ := E.bound_sound hx e n hn
    obtain ⟨e2, w2⟩ := evals_ok hx l h.2
    refine ⟨by simp only [List.map_cons, e1, e2], by simp, fun i hi => ?_⟩
    cases i with
    | zero =>
      simp only [List.map_cons, lget, bget, List.getD_cons_zero, hn, Iv.mem]
      omega
    | succ i =>
      have := w2.2 i (by simpa using hi)
      simpa [lget, bget] using this

theorem Within.append {a b : List Iv} {s t : Limbs} (h1 : Within a s) (h2 : Within b t) : Within (a ++ b) (s ++ t) := by
  refine ⟨by simp [h1.1, h2.1], fun i _ => ?_⟩
  by_cases hi : i < s.length
  · have := h1.2 i hi
    simp only [lget, bget, List.getD_eq_getElem?_getD, List.getElem?_append, hi, ← h1.1, if_true] at *
    exact this
  · have := h2.get (i - s.length)
    simp only [lget, bget, List.getD_eq_getElem?_getD, List.getElem?_append, hi, ← h1.1, if_false] at *
    exact this

/-- Schoolbook multiplication: the products, weighted, make `a*b + c`. -/
theorem mulAdd_value {a b c : Limbs} (ha : a.length = 12) (hb : b.length = 12) (hc : c.length = 12) :
    dot (w21 24) (mulAddLimbs.map (E.evalZ (a ++ b ++ c)) ++ [0]) = dot (w21 12) a * dot (w21 12) b + dot (w21 12) c := by
  match a, ha, b, hb, c, hc with
  | [a0, a1, a2, a3, a4, a5, a6, a7, a8, a9, a10, a11], _,
    [b0, b1, b2, b3, b4, b5, b6, b7, b8, b9, b10, b11], _,
    [c0, c1, c2, c3, c4, c5, c6, c7, c8, c9, c10, c11], _ =>
    have h1 : w21 24 = [1, 2 ^ 21, (2 ^ 21) ^ 2, (2 ^ 21) ^ 3, (2 ^ 21) ^ 4, (2 ^ 21) ^ 5, (2 ^ 21) ^ 6, (2 ^ 21) ^ 7, (2 ^ 21) ^ 8, (2 ^ 21) ^ 9, (2 ^ 21) ^ 10, (2 ^ 21) ^ 11, (2 ^ 21) ^ 12, (2 ^ 21) ^ 13, (2 ^ 21) ^ 14, (2 ^ 21) ^ 15, (2 ^ 21) ^ 16, (2 ^ 21) ^ 17, (2 ^ 21) ^ 18, (2 ^ 21) ^ 19, (2 ^ 21) ^ 20, (2 ^ 21) ^ 21, (2 ^ 21) ^ 22, (2 ^ 21) ^ 23] := by decide +kernel
    have h2 : w21 12 = [1, 2 ^ 21, (2 ^ 21) ^ 2, (2 ^ 21) ^ 3, (2 ^ 21) ^ 4, (2 ^ 21) ^ 5, (2 ^ 21) ^ 6, (2 ^ 21) ^ 7, (2 ^ 21) ^ 8, (2 ^ 21) ^ 9, (2 ^ 21) ^ 10, (2 ^ 21) ^ 11] := by decide +kernel
    rw [h1, h2]
    generalize (2 : Int) ^ 21 = t
    simp only [mulAddLimbs, List.map_cons, List.map_nil, List.cons_append, List.nil_append, dot, lget,
      E.evalZ, Nat.reduceAdd, List.getD_cons_zero, List.getD_cons_succ]
    ring

theorem ScMulAdd_eq {a b c : Bytes} (ha : a.length = 32) (hb : b.length = 32) (hc : c.length = 32) :
    leNat (ScMulAdd a b c) = (leNat a * leNat b + leNat c) % groupOrder := by
  have hm := mulAdd_bounds
  split at hm
  · cases hm
  rename_i B hB
  have la : leNat a < 2 ^ (21 * 11) * (2 ^ 25 - 1 + 1) := by have := leNat_lt a; rw [ha] at this; exact this
  have lb : leNat b < 2 ^ (21 * 11) * (2 ^ 25 - 1 + 1) := by have := leNat_lt b; rw [hb] at this; exact this
  have lc : leNat c < 2 ^ (21 * 11) * (2 ^ 25 - 1 + 1) := by have := leNat_lt c; rw [hc] at this; exact this
  have hx : AbsLe initMulAdd (limbs32 a ++ limbs32 b ++ limbs32 c) := by
    rw [limbs32_eq ha, limbs32_eq hb, limbs32_eq hc]
    exact ((cut_absLe 11 _ _ la).append (cut_absLe 11 _ _ lb)).append (cut_absLe 11 _ _ lc)
  obtain ⟨e1, w1⟩ := evals_ok hx mulAddLimbs mulAdd_exprs
  have w2 : Within mulAddIv (mulAddLimbs.map (E.evalZ (limbs32 a ++ limbs32 b ++ limbs32 c)) ++ [0]) :=
    w1.append ⟨rfl, fun i hi => by
      have : i = 0 := by simpa using hi
      subst this; exact ⟨Int.le_refl _, Int.le_refl _⟩⟩
  have hval : dot (w21 24) (mulAddLimbs.map (E.evalZ (limbs32 a ++ limbs32 b ++ limbs32 c)) ++ [0])
      = leNat a * leNat b + leNat c := by
    rw [mulAdd_value rfl rfl rfl, limbs32_eq ha, limbs32_eq hb, limbs32_eq hc]
    rw [show w21 12 = w21 (11 + 1) from rfl, dot_cut, dot_cut, dot_cut]
  unfold ScMulAdd
  simp only []
  rw [e1]
  have hlen : (mulAddLimbs.map (E.evalZ (limbs32 a ++ limbs32 b ++ limbs32 c)) ++ [0]).length = 24 := rfl
  generalize mulAddLimbs.map (E.evalZ (limbs32 a ++ limbs32 b ++ limbs32 c)) ++ [0] = s at *
  obtain ⟨e, hw2⟩ := bounds_sound (by decide) (mulAddCarries ++ scMain) _ B _ hB w2
  have k := execZ_keeps (w := w21 24) (M := groupOrder) (mulAddCarries ++ scMain) s (by rw [hlen]; rfl) (by decide +kernel)
  have t := sc_tail hm hw2
  rw [List.append_assoc (mulAddCarries ++ scMain), exec_append, e]
  have e2 : dot (w21 24) (execZ s (mulAddCarries ++ scMain)) % groupOrder = (leNat a * leNat b + leNat c) % groupOrder := by
    rw [← hval]; exact Int.emod_eq_emod_iff_emod_sub_eq_zero.2 (Int.emod_eq_zero_of_dvd k)
  rw [e2] at t
  exact_mod_cast t

theorem ScMulAdd_length (a b c : Bytes) : (ScMulAdd a b c).length = 32 := rfl

/-! ## `ScMinimal` -/

theorem load64_eq (b : Bytes) (i : Nat) : load64 b i = leNat b / 256 ^ (8 * i) % 2 ^ 64 := by
  have h4 := load4_eq b (8 * i)
  have g4 := load4_eq b (8 * i + 4)
  have l4 := at8_lt b (8 * i + 4)
  have l5 := at8_lt b (8 * i + 5)
  have l6 := at8_lt b (8 * i + 6)
  unfold load4 at h4 g4
  simp only [show 8 * i + 4 + 1 = 8 * i + 5 from rfl, show 8 * i + 4 + 2 = 8 * i + 6 from rfl,
    show 8 * i + 4 + 3 = 8 * i + 7 from rfl] at g4
  rw [or_shift (a := at8 b (8 * i + 4)) (n := 8) (by omega), or_shift (n := 16) (by omega),
    or_shift (n := 24) (by omega)] at g4
  unfold load64
  have hl : at8 b (8 * i) ||| at8 b (8 * i + 1) <<< 8 ||| at8 b (8 * i + 2) <<< 16 ||| at8 b (8 * i + 3) <<< 24 < 2 ^ 32 := by
    rw [h4]; omega
  rw [h4] at hl ⊢
  rw [or_shift hl, or_shift (n := 40) (by omega), or_shift (n := 48) (by omega), or_shift (n := 56) (by omega)]
  rw [Nat.pow_add, ← Nat.div_div_eq_div_mul] at g4
  generalize leNat b / 256 ^ (8 * i) = x at *
  omega

theorem ScMinimal_iff {s : Bytes} (h : s.length = 32) : ScMinimal s = true ↔ leNat s < groupOrder := by
  have hl := leNat_lt s
  rw [h] at hl
  have hg : groupOrder = 0x5812631a5cf5d3ed + 2 ^ 64 * 0x14def9dea2f79cd6 + 2 ^ 192 * 0x1000000000000000 := by decide +kernel
  have ho0 : order.getD 0 0 = 0x5812631a5cf5d3ed := rfl
  have ho1 : order.getD (0 + 1) 0 = 0x14def9dea2f79cd6 := rfl
  have ho2 : order.getD (0 + 1 + 1) 0 = 0 := rfl
  have ho3 : order.getD (0 + 1 + 1 + 1) 0 = 0x1000000000000000 := rfl
  have e0 := load64_eq s 0
  have e1 := load64_eq s (0 + 1)
  have e2 := load64_eq s (0 + 1 + 1)
  have e3 := load64_eq s (0 + 1 + 1 + 1)
  have d1 : leNat s / 256 ^ (8 * (0 + 1)) = leNat s / 2 ^ 64 := rfl
  have d2 : leNat s / 256 ^ (8 * (0 + 1 + 1)) = leNat s / 2 ^ 64 / 2 ^ 64 := by rw [Nat.div_div_eq_div_mul]; rfl
  have d3 : leNat s / 256 ^ (8 * (0 + 1 + 1 + 1)) = leNat s / 2 ^ 64 / 2 ^ 64 / 2 ^ 64 := by
    rw [Nat.div_div_eq_div_mul, Nat.div_div_eq_div_mul]; rfl
  rw [d1] at e1
  rw [d2] at e2
  rw [d3] at e3
  simp only [Nat.mul_zero, Nat.pow_zero, Nat.div_one] at e0
  rw [hg]
  unfold ScMinimal
  rw [show (3 : Nat) = 0 + 1 + 1 + 1 from rfl]
  simp only [scMinimalLoop, ho0, ho1, ho2, ho3, e0, e1, e2, e3]
  generalize leNat s = x at *
  clear e0 e1 e2 e3 d1 d2 d3
  have f1 : x = x % 2 ^ 64 + 2 ^ 64 * (x / 2 ^ 64) := by omega
  have f2 : x / 2 ^ 64 = x / 2 ^ 64 % 2 ^ 64 + 2 ^ 64 * (x / 2 ^ 64 / 2 ^ 64) := by omega
  have f3 : x / 2 ^ 64 / 2 ^ 64 = x / 2 ^ 64 / 2 ^ 64 % 2 ^ 64 + 2 ^ 64 * (x / 2 ^ 64 / 2 ^ 64 / 2 ^ 64) := by omega
  have f4 : x / 2 ^ 64 / 2 ^ 64 / 2 ^ 64 % 2 ^ 64 = x / 2 ^ 64 / 2 ^ 64 / 2 ^ 64 := by
    apply Nat.mod_eq_of_lt; omega
  have g0 : x % 2 ^ 64 < 2 ^ 64 := Nat.mod_lt _ (by decide)
  have g1 : x / 2 ^ 64 % 2 ^ 64 < 2 ^ 64 := Nat.mod_lt _ (by decide)
  have g2 : x / 2 ^ 64 / 2 ^ 64 % 2 ^ 64 < 2 ^ 64 := Nat.mod_lt _ (by decide)
  rw [f4]
  generalize x / 2 ^ 64 / 2 ^ 64 / 2 ^ 64 = y3 at *
  generalize x / 2 ^ 64 / 2 ^ 64 % 2 ^ 64 = y2 at *
  generalize x / 2 ^ 64 / 2 ^ 64 = z2 at *
  generalize x / 2 ^ 64 % 2 ^ 64 = y1 at *
  generalize x / 2 ^ 64 = z1 at *
  generalize x % 2 ^ 64 = y0 at *
  have hx : x = y0 + 2 ^ 64 * y1 + 2 ^ 128 * y2 + 2 ^ 192 * y3 := by omega
  clear f1 f2 f3 f4 hl
  subst hx
  repeat' split
  all_goals simp only [Bool.false_eq_true, false_iff, true_iff]
  all_goals omega

end Cardano.Ed
