import Verif.Ed25519.PointersProof
import Verif.Ed25519.SlideProof
/-!
# `GeDoubleScalarMultVartime` with pointers
-/
set_option autoImplicit false

namespace Cardano.Ed.Ptr

theorem new8_spec (m : Mem) (w : Nat) :
    Only m m.new8.2 w ∧ m.new8.1 = m.next ∧ m.new8.2.next = m.next + 8 := by
  refine ⟨⟨Nat.le_add_right _ _, fun o f ho _ => ?_⟩, rfl, rfl⟩
  simp only [Mem.fe, Mem.new8]
  exact List.map_congr_left fun i _ => if_neg (by omega)

/-- The table of odd multiples as far as the loop has got. -/
def oddList (A2 : Ext) (c : Cached) (n : Nat) : List Cached :=
  (List.range n).foldl (fun Ai i => Ai ++ [(Ed.geAdd A2 (Ai.getD i ⟨Ed.FeZero, Ed.FeZero, Ed.FeZero, Ed.FeZero⟩)).ToExtended.ToCached]) [c]

theorem oddList_length (A2 : Ext) (c : Cached) (n : Nat) : (oddList A2 c n).length = n + 1 := by
  induction n with
  | zero => rfl
  | succ n ih => rw [oddList, List.range_succ, List.foldl_append]; simp only [List.foldl_cons, List.foldl_nil, List.length_append, List.length_singleton]; rw [← oddList, ih]

theorem oddList_succ (A2 : Ext) (c : Cached) (n : Nat) :
    oddList A2 c (n + 1) = oddList A2 c n ++ [(Ed.geAdd A2 ((oddList A2 c n).getD n noCached)).ToExtended.ToCached] := by
  rw [oddList, List.range_succ, List.foldl_append]; rfl

theorem getD_append_last {l : List Cached} {n : Nat} (h : l.length = n) (x d : Cached) : (l ++ [x]).getD n d = x := by
  simp [List.getD_eq_getElem?_getD, ← h]

theorem getD_append_left {l : List Cached} {n : Nat} (h : n < l.length) (x d : Cached) : (l ++ [x]).getD n d = l.getD n d := by
  simp [List.getD_eq_getElem?_getD, List.getElem?_append, h]

theorem oddLoop_range {m0 m : Mem} {r ai t u a2 : Nat} (g : Globals m0) (ho : Only m0 m r) (hr : firstFree ≤ r)
    (hai : m0.next ≤ ai) (ht : t = ai + 8) (hu : u = ai + 9) (ha2 : a2 = ai + 10) (hn : a2 < m.next) (n : Nat) (hn7 : n ≤ 7) :
    let m' := (List.range n).foldl (fun m i => m |> geAdd t a2 (ai + i) |> toExtended t u |> toCached u (ai + (i + 1))) m
    Only m0 m' r ∧ m.next ≤ m'.next ∧ m'.ext a2 = m.ext a2 ∧ ∀ j, j ≤ n → m'.cached (ai + j) = (oddList (m.ext a2) (m.cached ai) n).getD j noCached := by
  induction n with
  | zero =>
    refine ⟨ho, Nat.le_refl _, rfl, fun j hj => ?_⟩
    obtain rfl : j = 0 := by omega
    rfl
  | succ n ih =>
    obtain ⟨i1, i2, i3, i4⟩ := ih (by omega)
    rw [List.range_succ, List.foldl_append]
    simp only [List.foldl_cons, List.foldl_nil]
    generalize (List.range n).foldl (fun m i => m |> geAdd t a2 (ai + i) |> toExtended t u |> toCached u (ai + (i + 1))) m = m1 at *
    have hf := g.free
    obtain ⟨a1, a3⟩ := geAdd_spec (m := m1) (r := t) (p := a2) (q := ai + n) (by omega) (by omega) (by omega) (by omega) (by omega)
    have o1 := i1.trans a1 (.inr (by omega))
    have a0 := a1.1
    have x1 : (geAdd t a2 (ai + n) m1).ext a2 = m1.ext a2 := a1.ext (by omega) (by omega)
    have y1 : ∀ j, j ≤ n → (geAdd t a2 (ai + n) m1).cached (ai + j) = m1.cached (ai + j) := fun j hj => a1.cached (by omega) (by omega)
    generalize geAdd t a2 (ai + n) m1 = m2 at *
    obtain ⟨b1, b3⟩ := toExtended_spec (m := m2) (p := t) (r := u) (by omega)
    have o2 := o1.trans b1 (.inr (by omega))
    have b0 := b1.1
    have x2 : (toExtended t u m2).ext a2 = m2.ext a2 := b1.ext (by omega) (by omega)
    have y2 : ∀ j, j ≤ n → (toExtended t u m2).cached (ai + j) = m2.cached (ai + j) := fun j hj => b1.cached (by omega) (by omega)
    generalize toExtended t u m2 = m3 at *
    obtain ⟨c1, c3⟩ := toCached_spec (m := m3) (p := u) (r := ai + (n + 1)) (g.only o2 hr) (by omega) (by omega)
    have c0 := c1.1
    have x3 : (toCached u (ai + (n + 1)) m3).ext a2 = m3.ext a2 := c1.ext (by omega) (by omega)
    have y3 : ∀ j, j ≤ n → (toCached u (ai + (n + 1)) m3).cached (ai + j) = m3.cached (ai + j) := fun j hj => c1.cached (by omega) (by omega)
    refine ⟨o2.trans c1 (.inr (by omega)), by omega, by rw [x3, x2, x1, i3], fun j hj => ?_⟩
    rw [oddList_succ]
    by_cases h : j = n + 1
    · subst h
      rw [c3, b3, a3, i3, i4 n (Nat.le_refl _), getD_append_last (oddList_length _ _ _)]
    · have hj' : j ≤ n := by omega
      rw [y3 j hj', y2 j hj', y1 j hj', i4 j hj', getD_append_left (by rw [oddList_length]; omega)]

theorem doubleStep_spec {m0 m : Mem} {r ai t u : Nat} {da db : Int} {Ai : List Cached} (g : Globals m0) (ho : Only m0 m r) (hr : firstFree ≤ r)
    (hrn : r < m0.next) (hai : m0.next ≤ ai) (ht : t = ai + 8) (hu : u = ai + 9) (hn : u < m.next) (hA : ∀ j, j < 8 → m.cached (ai + j) = Ai.getD j noCached)
    (hda : Digit da) (hdb : Digit db) :
    let m' := doubleStep r ai t u da db m
    Only m0 m' r ∧ m.next ≤ m'.next ∧ (∀ j, j < 8 → m'.cached (ai + j) = Ai.getD j noCached) ∧ m'.proj r = Ed.doubleStep Ai (m.proj r) da db := by
  have hf := g.free
  have ho0 := ho.1
  intro m'
  have hm' : m' = doubleStep r ai t u da db m := rfl
  clear_value m'
  unfold doubleStep at hm'
  unfold Ed.doubleStep
  dsimp only at hm' ⊢
  -- `r.Double(&t)`
  obtain ⟨a1, a3⟩ := projDouble_spec (m := m) (p := r) (r := t) (by omega) (by omega) (by omega)
  have o1 := ho.trans a1 (.inr (by omega))
  have a0 := a1.1
  have y1 : ∀ j, j < 8 → (projDouble r t m).cached (ai + j) = Ai.getD j noCached := fun j hj => by rw [a1.cached (by omega) (by omega), hA j hj]
  rw [← a3]
  generalize projDouble r t m = m1 at *
  -- the part for `aSlide[i]`
  obtain ⟨m2, hm2⟩ : ∃ m2, m2 = if da > 0 then m1 |> toExtended t u |> geAdd t u (ai + (da / 2).toNat)
    else if da < 0 then m1 |> toExtended t u |> geSub t u (ai + (wrap 8 (-da) / 2).toNat) else m1 := ⟨_, rfl⟩
  have key : Only m0 m2 r ∧ m1.next ≤ m2.next ∧ (∀ j, j < 8 → m2.cached (ai + j) = Ai.getD j noCached) ∧
      m2.compl t = (if da > 0 then Ed.geAdd (m1.compl t).ToExtended (Ai.getD (da / 2).toNat ⟨Ed.FeZero, Ed.FeZero, Ed.FeZero, Ed.FeZero⟩)
        else if da < 0 then Ed.geSub (m1.compl t).ToExtended (Ai.getD (wrap 8 (-da) / 2).toNat ⟨Ed.FeZero, Ed.FeZero, Ed.FeZero, Ed.FeZero⟩) else m1.compl t) := by
    obtain ⟨b1, b3⟩ := toExtended_spec (m := m1) (p := t) (r := u) (by omega)
    have o2 := o1.trans b1 (.inr (by omega))
    have b0 := b1.1
    have y2 : ∀ j, j < 8 → (toExtended t u m1).cached (ai + j) = Ai.getD j noCached := fun j hj => by rw [b1.cached (by omega) (by omega), y1 j hj]
    by_cases hp : da > 0
    · rw [if_pos hp] at hm2 ⊢
      have hj := (digit_pos hda hp 0).1
      obtain ⟨c1, c3⟩ := geAdd_spec (m := toExtended t u m1) (r := t) (p := u) (q := ai + (da / 2).toNat) (by omega) (by omega) (by omega) (by omega) (by omega)
      rw [hm2]
      have c0 := c1.1
      refine ⟨o2.trans c1 (.inr (by omega)), Nat.le_trans b0 c0, fun j hj => ?_, ?_⟩
      · exact (c1.cached (by omega) (by omega)).trans (y2 j hj)
      · rw [b3, y2 _ hj] at c3; exact c3
    · rw [if_neg hp] at hm2 ⊢
      by_cases hq : da < 0
      · rw [if_pos hq] at hm2 ⊢
        have hj := (digit_neg hda hq 0).1
        obtain ⟨c1, c3⟩ := geSub_spec (m := toExtended t u m1) (r := t) (p := u) (q := ai + (wrap 8 (-da) / 2).toNat) (by omega) (by omega) (by omega) (by omega) (by omega)
        rw [hm2]
        have c0 := c1.1
        refine ⟨o2.trans c1 (.inr (by omega)), Nat.le_trans b0 c0, fun j hj => ?_, ?_⟩
        · exact (c1.cached (by omega) (by omega)).trans (y2 j hj)
        · rw [b3, y2 _ hj] at c3; exact c3
      · rw [if_neg hq] at hm2 ⊢
        rw [hm2]
        exact ⟨o1, Nat.le_refl _, y1, rfl⟩
  rw [← hm2] at hm'
  obtain ⟨o2, n2, y2, v2⟩ := key
  rw [← v2]
  clear hm2 v2 y1 a3 a1 o1
  -- the part for `bSlide[i]`
  obtain ⟨m3, hm3⟩ : ∃ m3, m3 = if db > 0 then m2 |> toExtended t u |> geMixedAdd t u (biO (db / 2).toNat)
    else if db < 0 then m2 |> toExtended t u |> geMixedSub t u (biO (wrap 8 (-db) / 2).toNat) else m2 := ⟨_, rfl⟩
  have key : Only m0 m3 r ∧ m2.next ≤ m3.next ∧ (∀ j, j < 8 → m3.cached (ai + j) = Ai.getD j noCached) ∧
      m3.compl t = (if db > 0 then Ed.geMixedAdd (m2.compl t).ToExtended (Ed.bi.getD (db / 2).toNat PreComp.Zero)
        else if db < 0 then Ed.geMixedSub (m2.compl t).ToExtended (Ed.bi.getD (wrap 8 (-db) / 2).toNat PreComp.Zero) else m2.compl t) := by
    obtain ⟨b1, b3⟩ := toExtended_spec (m := m2) (p := t) (r := u) (by omega)
    have o3 := o2.trans b1 (.inr (by omega))
    have b0 := b1.1
    have g3 := g.only o3 hr
    have y3 : ∀ j, j < 8 → (toExtended t u m2).cached (ai + j) = Ai.getD j noCached := fun j hj => by rw [b1.cached (by omega) (by omega), y2 j hj]
    have hb8 : ∀ j, j < 8 → biO j < firstFree := fun j hj => by simp only [biO, firstFree]; omega
    by_cases hp : db > 0
    · rw [if_pos hp] at hm3 ⊢
      have hj := (digit_pos hdb hp 0).1
      have hb := hb8 _ hj
      obtain ⟨c1, c3⟩ := geMixedAdd_spec (m := toExtended t u m2) (r := t) (p := u) (q := biO (db / 2).toNat) (by omega) (by omega) (by omega) (by omega) (by omega)
      rw [hm3]
      have c0 := c1.1
      refine ⟨o3.trans c1 (.inr (by omega)), Nat.le_trans b0 c0, fun j hj => ?_, ?_⟩
      · exact (c1.cached (by omega) (by omega)).trans (y3 j hj)
      · rw [b3, g3.bi _ hj] at c3; exact c3
    · rw [if_neg hp] at hm3 ⊢
      by_cases hq : db < 0
      · rw [if_pos hq] at hm3 ⊢
        have hj := (digit_neg hdb hq 0).1
        have hb := hb8 _ hj
        obtain ⟨c1, c3⟩ := geMixedSub_spec (m := toExtended t u m2) (r := t) (p := u) (q := biO (wrap 8 (-db) / 2).toNat) (by omega) (by omega) (by omega) (by omega) (by omega)
        rw [hm3]
        have c0 := c1.1
        refine ⟨o3.trans c1 (.inr (by omega)), Nat.le_trans b0 c0, fun j hj => ?_, ?_⟩
        · exact (c1.cached (by omega) (by omega)).trans (y3 j hj)
        · rw [b3, g3.bi _ hj] at c3; exact c3
      · rw [if_neg hq] at hm3 ⊢
        rw [hm3]
        exact ⟨o2, Nat.le_refl _, y2, rfl⟩
  rw [← hm3] at hm'
  obtain ⟨o3, n3, y3, v3⟩ := key
  rw [← v3]
  clear hm3 v3
  -- `t.ToProjective(r)`
  obtain ⟨c1, c3⟩ := complToProjective_spec (m := m3) (p := t) (r := r) (by omega)
  have c0 := c1.1
  rw [hm']
  exact ⟨o3.trans c1 (.inl rfl), by omega, fun j hj => by rw [c1.cached (by omega) (by omega), y3 j hj], c3⟩

theorem mainLoop_spec {m0 : Mem} {r ai t u : Nat} {Ai : List Cached} {sa sb : List Int} (g : Globals m0) (hr : firstFree ≤ r)
    (hrn : r < m0.next) (hai : m0.next ≤ ai) (ht : t = ai + 8) (hu : u = ai + 9) (hsa : ∀ x ∈ sa, Digit x) (hsb : ∀ x ∈ sb, Digit x) :
    ∀ (is : List Nat) (m : Mem), Only m0 m r → u < m.next → (∀ j, j < 8 → m.cached (ai + j) = Ai.getD j noCached) →
    let m' := is.foldl (fun m i => doubleStep r ai t u (lget sa i) (lget sb i) m) m
    Only m0 m' r ∧ m'.proj r = is.foldl (fun r i => Ed.doubleStep Ai r (lget sa i) (lget sb i)) (m.proj r) := by
  intro is
  induction is with
  | nil => exact fun m ho _ _ => ⟨ho, rfl⟩
  | cons i is ih =>
    intro m ho hn hA
    obtain ⟨a1, a2, a3, a4⟩ := doubleStep_spec g ho hr hrn hai ht hu hn hA (lget_digit hsa i) (lget_digit hsb i)
    rw [List.foldl_cons, List.foldl_cons, ← a4]
    generalize doubleStep r ai t u (lget sa i) (lget sb i) m = m1 at *
    exact ih m1 a1 (by omega) a3

theorem GeDoubleScalarMultVartime_spec {m : Mem} {r A : Nat} {a b : Bytes} (g : Globals m) (hr : firstFree ≤ r) (hrn : r < m.next) (hA : A < m.next)
    (ha : ∀ x ∈ slide a, Digit x) (hb : ∀ x ∈ slide b, Digit x) :
    Only m (GeDoubleScalarMultVartime r a A b m) r ∧
      (GeDoubleScalarMultVartime r a A b m).proj r = Ed.GeDoubleScalarMultVartime a (m.ext A) b := by
  unfold GeDoubleScalarMultVartime Ed.GeDoubleScalarMultVartime
  dsimp only
  have hf := g.free
  obtain ⟨o1, e1, n1⟩ := new8_spec m r
  have x1 : m.new8.2.ext A = m.ext A := (new8_spec m (A + 1)).1.ext hA (by omega)
  rw [e1]
  generalize m.new8.2 = m1 at *
  obtain ⟨m2, e2, o2, n2, f2⟩ := new_spec m1 r
  obtain ⟨m3, e3, o3, n3, f3⟩ := new_spec m2 r
  obtain ⟨m4, e4, o4, n4, f4⟩ := new_spec m3 r
  rw [e2, e3, e4]
  dsimp only
  have o := ((o1.trans o2 (.inl rfl)).trans o3 (.inl rfl)).trans o4 (.inl rfl)
  have x4 : m4.ext A = m.ext A := by
    rw [← x1]; simp only [Mem.ext, f4 A (by omega), f3 A (by omega), f2 A (by omega)]
  rw [← x4]
  obtain ⟨ai, hai⟩ : ∃ ai, m.next = ai := ⟨_, rfl⟩
  have ht : m1.next = ai + 8 := by omega
  have hu : m2.next = ai + 9 := by omega
  have ha2 : m3.next = ai + 10 := by omega
  rw [ht, hu, ha2, hai]
  obtain ⟨t, ht'⟩ : ∃ t, t = ai + 8 := ⟨_, rfl⟩
  obtain ⟨u, hu'⟩ : ∃ u, u = ai + 9 := ⟨_, rfl⟩
  obtain ⟨a2, ha2'⟩ : ∃ a2, a2 = ai + 10 := ⟨_, rfl⟩
  rw [← ht', ← hu', ← ha2']
  -- `A.ToCached(&Ai[0])`
  obtain ⟨c1, c3⟩ := toCached_spec (m := m4) (p := A) (r := ai) (g.only o hr) (by omega) (by omega)
  have o := o.trans c1 (.inr (by omega))
  have c0 := c1.1
  have z5 : (toCached A ai m4).ext A = m4.ext A := c1.ext (by omega) (by omega)
  unfold oddMultiples
  dsimp only
  rw [← c3, ← z5]
  generalize toCached A ai m4 = m5 at *
  obtain ⟨c1, c3⟩ := extDouble_spec (m := m5) (p := A) (r := t) (by omega) (by omega) (by omega)
  have o := o.trans c1 (.inr (by omega))
  have c6 := c1.1
  have z6 : (extDouble A t m5).cached ai = m5.cached ai := c1.cached (by omega) (by omega)
  rw [← c3, ← z6]
  generalize extDouble A t m5 = m6 at *
  obtain ⟨c1, c3⟩ := toExtended_spec (m := m6) (p := t) (r := a2) (by omega)
  have o := o.trans c1 (.inr (by omega))
  have c7 := c1.1
  have z7 : (toExtended t a2 m6).cached ai = m6.cached ai := c1.cached (by omega) (by omega)
  rw [← c3, ← z7]
  generalize toExtended t a2 m6 = m7 at *
  obtain ⟨l1, l2, -, l4⟩ := oddLoop_range (m0 := m) (m := m7) (r := r) (ai := ai) (t := t) (u := u) (a2 := a2) g o hr (by omega) (by omega) (by omega)
    (by omega) (by omega) 7 (Nat.le_refl _)
  rw [show (List.range 7).foldl (fun m i => m |> geAdd t a2 (ai + i) |> toExtended t u |> toCached u (ai + (i + 1))) m7 = oddLoop ai t u a2 m7 from rfl] at l1 l2 l4
  generalize oddLoop ai t u a2 m7 = m8 at *
  have g8 := g.only l1 hr
  obtain ⟨c1, c3⟩ := projZero_spec (m := m8) (p := r) g8 hr
  have c9 := c1.1
  have o := l1.trans c1 (.inl rfl)
  have hA8 : ∀ j, j < 8 → (projZero r m8).cached (ai + j) = (oddList (m7.ext a2) (m7.cached ai) 7).getD j noCached := fun j hj => by
    rw [c1.cached (by omega) (by omega), l4 j (by omega)]
  rw [← c3]
  generalize projZero r m8 = m9 at *
  exact mainLoop_spec g hr hrn (by omega) ht' hu' ha hb _ m9 o (by omega) hA8

end Cardano.Ed.Ptr
