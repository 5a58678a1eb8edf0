import Verif.Ed25519.Pointers
/-!
# The model with pointers agrees with the model on values
-/
set_option autoImplicit false

namespace Cardano.Ed.Ptr

/-- Memory with a new value at `p` (specification, not part of the model). -/
def Mem.put (m : Mem) (p : Loc) (v : FE) : Mem :=
  { m with cell := fun o f j => if o = p.1 ∧ f = p.2 ∧ j < 10 then lget v j else m.cell o f j }

theorem Mem.ext' {m m' : Mem} (h : m.next = m'.next) (hc : ∀ o f i, m.cell o f i = m'.cell o f i) : m = m' := by
  cases m; cases m'
  simp only [Mem.mk.injEq]
  exact ⟨h, by funext o f i; exact hc o f i⟩

theorem fe_length (m : Mem) (p : Loc) : (m.fe p).length = 10 := by simp [Mem.fe]

theorem lget_fe (m : Mem) (p : Loc) (i : Nat) (h : i < 10) : lget (m.fe p) i = m.cell p.1 p.2 i := by
  simp [Mem.fe, lget, h]

theorem fe_ext {v w : FE} (hv : v.length = 10) (hw : w.length = 10) (h : ∀ i, i < 10 → lget v i = lget w i) : v = w := by
  apply List.ext_getElem (by rw [hv, hw])
  intro i h1 h2
  have := h i (by omega)
  simpa [lget, List.getD_eq_getElem?_getD, List.getElem?_eq_getElem h1, List.getElem?_eq_getElem h2] using this

theorem fe_put_same (m : Mem) (p : Loc) (v : FE) (hv : v.length = 10) : (m.put p v).fe p = v := by
  apply fe_ext (fe_length _ _) hv
  intro i hi
  rw [lget_fe _ _ _ hi]
  simp [Mem.put, hi]

theorem fe_put_other (m : Mem) (p q : Loc) (v : FE) (h : q ≠ p) : (m.put p v).fe q = m.fe q := by
  apply fe_ext (fe_length _ _) (fe_length _ _)
  intro i hi
  rw [lget_fe _ _ _ hi, lget_fe _ _ _ hi]
  have : ¬ (q.1 = p.1 ∧ q.2 = p.2 ∧ i < 10) := fun e => h (Prod.ext e.1 e.2.1)
  simp [Mem.put, this]

theorem put_self (m : Mem) (p : Loc) : m.put p (m.fe p) = m := by
  refine Mem.ext' (by rfl) ?_
  intro o f i
  simp only [Mem.put]
  split
  · next h => rw [lget_fe _ _ _ h.2.2, h.1, h.2.1]
  · rfl

theorem put_put (m : Mem) (p : Loc) (v w : FE) : (m.put p v).put p w = m.put p w := by
  refine Mem.ext' (by rfl) ?_
  intro o f i
  simp only [Mem.put]
  split <;> rfl

/-! ### Writing limb by limb -/

theorem limbwise_cells (g : Int → Int → Int) (dst a b : Loc) (m : Mem) (n : Nat) :
    let m' := (List.range n).foldl (fun m i => m.wr dst i (g (m.cell a.1 a.2 i) (m.cell b.1 b.2 i))) m
    m'.next = m.next ∧ ∀ o f i, m'.cell o f i = if o = dst.1 ∧ f = dst.2 ∧ i < n then g (m.cell a.1 a.2 i) (m.cell b.1 b.2 i) else m.cell o f i := by
  induction n with
  | zero => simp
  | succ n ih =>
    rw [List.range_succ, List.foldl_append]
    simp only [List.foldl_cons, List.foldl_nil]
    generalize (List.range n).foldl (fun m i => m.wr dst i (g (m.cell a.1 a.2 i) (m.cell b.1 b.2 i))) m = m' at *
    obtain ⟨h1, h2⟩ := ih
    refine ⟨h1, fun o f i => ?_⟩
    simp only [Mem.wr, h2]
    by_cases hi : i = n
    · subst hi; simp
    · have : (i < n + 1) ↔ i < n := by omega
      simp [hi, this]

theorem limbwise_eq (g : Int → Int → Int) (dst a b : Loc) (m : Mem) :
    limbwise g dst a b m = m.put dst (List.zipWith g (m.fe a) (m.fe b)) := by
  obtain ⟨h1, h2⟩ := limbwise_cells g dst a b m 10
  refine Mem.ext' (by exact h1) ?_
  intro o f i
  rw [limbwise, h2]
  simp only [Mem.put]
  split
  · next h =>
    have hi := h.2.2
    simp [lget, Mem.fe, hi, List.getD_eq_getElem?_getD]
  · rfl

theorem writeAll_eq (dst : Loc) (v : FE) (m : Mem) :
    (List.range 10).foldl (fun m i => m.wr dst i (lget v i)) m = m.put dst v := by
  have : ∀ n, (((List.range n).foldl (fun m i => m.wr dst i (lget v i)) m).next = m.next) ∧ ∀ o f i,
      ((List.range n).foldl (fun m i => m.wr dst i (lget v i)) m).cell o f i = if o = dst.1 ∧ f = dst.2 ∧ i < n then lget v i else m.cell o f i := by
    intro n
    induction n with
    | zero => simp
    | succ n ih =>
      rw [List.range_succ, List.foldl_append]
      simp only [List.foldl_cons, List.foldl_nil]
      generalize (List.range n).foldl (fun m i => m.wr dst i (lget v i)) m = m' at *
      obtain ⟨h1, h2⟩ := ih
      refine ⟨h1, fun o f i => ?_⟩
      simp only [Mem.wr, h2]
      by_cases hi : i = n
      · subst hi; simp
      · have : (i < n + 1) ↔ i < n := by omega
        simp [hi, this]
  exact Mem.ext' (this 10).1 (this 10).2

theorem zipWith_left {f : Int → Int} (l : List Int) : List.zipWith (fun x _ => f x) l l = l.map f := by
  induction l with
  | nil => rfl
  | cons a l ih => simp

theorem FeAdd_eq (dst a b : Loc) (m : Mem) : FeAdd dst a b m = m.put dst (Ed.FeAdd (m.fe a) (m.fe b)) := limbwise_eq _ _ _ _ _
theorem FeSub_eq (dst a b : Loc) (m : Mem) : FeSub dst a b m = m.put dst (Ed.FeSub (m.fe a) (m.fe b)) := limbwise_eq _ _ _ _ _
theorem FeCMove_eq (f g : Loc) (b : Int) (m : Mem) : FeCMove f g b m = m.put f (Ed.FeCMove (m.fe f) (m.fe g) b) := limbwise_eq _ _ _ _ _
theorem FeNeg_eq (h f : Loc) (m : Mem) : FeNeg h f m = m.put h (Ed.FeNeg (m.fe f)) :=
  (limbwise_eq _ _ _ _ _).trans (by rw [Ed.FeNeg, zipWith_left (f := fun x => wrap 32 (-x))])
theorem FeCopy_eq (dst src : Loc) (m : Mem) : FeCopy dst src m = m.put dst (m.fe src) :=
  (limbwise_eq _ _ _ _ _).trans (by rw [zipWith_left (f := fun x => x)]; simp)
theorem FeCombine_eq (h : Loc) (l : Limbs) (m : Mem) : FeCombine h l m = m.put h (Ed.FeCombine l) := writeAll_eq _ _ _
theorem FeMul_eq (h f g : Loc) (m : Mem) : FeMul h f g m = m.put h (Ed.FeMul (m.fe f) (m.fe g)) := by rw [FeMul, FeCombine_eq, Ed.FeMul]
theorem FeSquare_eq (h f : Loc) (m : Mem) : FeSquare h f m = m.put h (Ed.FeSquare (m.fe f)) := by rw [FeSquare, FeCombine_eq, Ed.FeSquare]
theorem FeSquare2_eq (h f : Loc) (m : Mem) : FeSquare2 h f m = m.put h (Ed.FeSquare2 (m.fe f)) := by rw [FeSquare2, FeCombine_eq, Ed.FeSquare2]
theorem FeFromBytes_eq (h : Loc) (s : Bytes) (m : Mem) : FeFromBytes h s m = m.put h (Ed.FeFromBytes s) := by rw [FeFromBytes, FeCombine_eq, Ed.FeFromBytes]
theorem FeToBytes_eq (h : Loc) (m : Mem) : FeToBytes h m = ((Ed.FeToBytes (m.fe h)).1, m.put h (Ed.FeToBytes (m.fe h)).2) :=
  Prod.ext rfl (writeAll_eq _ _ _)
theorem FeIsNegative_eq (h : Loc) (m : Mem) : FeIsNegative h m = ((Ed.FeIsNegative (m.fe h)).1, m.put h (Ed.FeIsNegative (m.fe h)).2) := by
  unfold FeIsNegative; rw [FeToBytes_eq]; rfl
theorem FeIsNonZero_eq (h : Loc) (m : Mem) : FeIsNonZero h m = ((Ed.FeIsNonZero (m.fe h)).1, m.put h (Ed.FeIsNonZero (m.fe h)).2) := by
  unfold FeIsNonZero; rw [FeToBytes_eq]; rfl
theorem FeZero_eq (p : Loc) (m : Mem) (hz : m.fe zeroL = Ed.FeZero) : FeZero p m = m.put p Ed.FeZero := by
  rw [FeZero, FeCopy_eq, hz]
theorem FeOne_eq (p : Loc) (m : Mem) (hz : m.fe zeroL = Ed.FeZero) : FeOne p m = m.put p Ed.FeOne := by
  rw [FeOne, FeZero_eq p m hz]
  refine Mem.ext' (by rfl) ?_
  intro o f i
  simp only [Mem.wr, Mem.put]
  by_cases h : o = p.1 ∧ f = p.2
  · obtain ⟨rfl, rfl⟩ := h
    by_cases h0 : i = 0
    · subst h0; simp [lget, Ed.FeOne]
    · have : lget Ed.FeZero i = lget Ed.FeOne i := by
        cases i with
        | zero => exact absurd rfl h0
        | succ i => rfl
      simp [h0, this]
  · have h1 : ¬ (o = p.1 ∧ f = p.2 ∧ i = 0) := fun e => h ⟨e.1, e.2.1⟩
    have h2 : ¬ (o = p.1 ∧ f = p.2 ∧ i < 10) := fun e => h ⟨e.1, e.2.1⟩
    simp [h1, h2]

/-! ### Lengths -/

theorem addMuls_length (w : Nat) (t : Int) : ∀ (l : List (Nat × Int)) (s : Limbs), (addMuls w t s l).length = s.length
  | [], _ => rfl
  | _ :: l, s => by rw [addMuls, addMuls_length w t l]; simp

theorem exec_length (w : Nat) : ∀ (p : List Op) (s : Limbs), (exec w s p).length = s.length
  | [], _ => rfl
  | o :: p, s => by
    rw [exec, List.foldl_cons]
    rw [show List.foldl (step w) (step w s o) p = exec w (step w s o) p from rfl, exec_length w p]
    cases o <;> simp [step, addMuls_length]

theorem FeCombine_length (l : Limbs) : (Ed.FeCombine l).length = l.length := by simp [Ed.FeCombine, exec_length]
theorem FeMul_length (f g : FE) : (Ed.FeMul f g).length = 10 := by rw [Ed.FeMul, FeCombine_length, List.length_map]; rfl
theorem FeSquare_length (f : FE) : (Ed.FeSquare f).length = 10 := by rw [Ed.FeSquare, FeCombine_length, List.length_map]; rfl
theorem FeSquare2_length (f : FE) : (Ed.FeSquare2 f).length = 10 := by
  rw [Ed.FeSquare2, FeCombine_length, List.length_map, List.length_map]; rfl
theorem FeFromBytes_length (s : Bytes) : (Ed.FeFromBytes s).length = 10 := by rw [Ed.FeFromBytes, FeCombine_length, List.length_map]; rfl
theorem FeAdd_length (f g : FE) : (Ed.FeAdd f g).length = min f.length g.length := by simp [Ed.FeAdd]
theorem FeSub_length (f g : FE) : (Ed.FeSub f g).length = min f.length g.length := by simp [Ed.FeSub]
theorem FeCMove_length (f g : FE) (b : Int) : (Ed.FeCMove f g b).length = min f.length g.length := by simp [Ed.FeCMove]
theorem FeNeg_length (f : FE) : (Ed.FeNeg f).length = f.length := by simp [Ed.FeNeg]
theorem FeToBytes_length (f : FE) (h : f.length = 10) : (Ed.FeToBytes f).2.length = 10 := by simp [Ed.FeToBytes, exec_length, h]
theorem FeIsNegative_length (f : FE) (h : f.length = 10) : (Ed.FeIsNegative f).2.length = 10 := FeToBytes_length f h
theorem FeIsNonZero_length (f : FE) (h : f.length = 10) : (Ed.FeIsNonZero f).2.length = 10 := FeToBytes_length f h

/-! ### What a function writes -/

/-- Between the two states nothing but object `w` was written, apart from objects allocated in between. -/
def Only (m m' : Mem) (w : Nat) : Prop := m.next ≤ m'.next ∧ ∀ o f, o < m.next → o ≠ w → m'.fe (o, f) = m.fe (o, f)

theorem Only.refl (m : Mem) (w : Nat) : Only m m w := ⟨Nat.le_refl _, fun _ _ _ _ => rfl⟩

theorem fe_new (m : Mem) (o f : Nat) (h : o ≠ m.next) : m.new.2.fe (o, f) = m.fe (o, f) := by
  simp only [Mem.fe, Mem.new]
  exact List.map_congr_left fun i _ => if_neg h

theorem Only.new {m m' : Mem} {w : Nat} (h : Only m m' w) : Only m m'.new.2 w := by
  refine ⟨Nat.le_succ_of_le h.1, fun o f ho hw => ?_⟩
  have := h.1
  rw [← h.2 o f ho hw, fe_new _ _ _ (by omega)]

theorem Only.put {m m' : Mem} {w : Nat} (h : Only m m' w) (p : Loc) (v : FE) (hp : p.1 = w ∨ m.next ≤ p.1) : Only m (m'.put p v) w := by
  refine ⟨h.1, fun o f ho hw => ?_⟩
  rw [← h.2 o f ho hw, fe_put_other]
  rintro rfl
  simp only at hp
  omega

/-- Composition: the second part writes `w`, or an object the first part allocated. -/
theorem Only.trans {m m1 m2 : Mem} {w w' : Nat} (h : Only m m1 w) (h' : Only m1 m2 w') (hw : w' = w ∨ m.next ≤ w') : Only m m2 w := by
  refine ⟨Nat.le_trans h.1 h'.1, fun o f ho hn => ?_⟩
  rw [h'.2 o f (Nat.lt_of_lt_of_le ho h.1) (by omega), h.2 o f ho hn]

theorem Only.fe {m m' : Mem} {w : Nat} (h : Only m m' w) (o f : Nat) (ho : o < m.next) (hw : o ≠ w) : m'.fe (o, f) = m.fe (o, f) :=
  h.2 o f ho hw

theorem Only.ext {m m' : Mem} {w : Nat} (h : Only m m' w) {o : Nat} (ho : o < m.next) (hw : o ≠ w) : m'.ext o = m.ext o := by
  simp only [Mem.ext, h.fe _ _ ho hw]
theorem Only.proj {m m' : Mem} {w : Nat} (h : Only m m' w) {o : Nat} (ho : o < m.next) (hw : o ≠ w) : m'.proj o = m.proj o := by
  simp only [Mem.proj, h.fe _ _ ho hw]
theorem Only.compl {m m' : Mem} {w : Nat} (h : Only m m' w) {o : Nat} (ho : o < m.next) (hw : o ≠ w) : m'.compl o = m.compl o := by
  simp only [Mem.compl, h.fe _ _ ho hw]
theorem Only.pre {m m' : Mem} {w : Nat} (h : Only m m' w) {o : Nat} (ho : o < m.next) (hw : o ≠ w) : m'.pre o = m.pre o := by
  simp only [Mem.pre, h.fe _ _ ho hw]
theorem Only.cached {m m' : Mem} {w : Nat} (h : Only m m' w) {o : Nat} (ho : o < m.next) (hw : o ≠ w) : m'.cached o = m.cached o := by
  simp only [Mem.cached, h.fe _ _ ho hw]

theorem fe_put (m : Mem) (p q : Loc) (v : FE) (hv : v.length = 10) : (m.put p v).fe q = if q = p then v else m.fe q := by
  split
  · next h => rw [h]; exact fe_put_same _ _ _ hv
  · next h => exact fe_put_other _ _ _ _ h

/-- The package variables have their values. -/
structure Globals (m : Mem) : Prop where
  free : firstFree ≤ m.next
  zero : m.fe zeroL = Ed.FeZero
  d : m.fe dL = Ed.d
  d2 : m.fe d2L = Ed.d2
  sqrtM1 : m.fe sqrtM1L = Ed.SqrtM1
  base : ∀ pos i, pos < 32 → i < 8 → m.pre (baseO pos i) = baseAt pos i
  bi : ∀ j, j < 8 → m.pre (biO j) = Ed.bi.getD j PreComp.Zero

theorem Globals.only {m m' : Mem} {w : Nat} (g : Globals m) (h : Only m m' w) (hw : firstFree ≤ w) : Globals m' := by
  have hf := g.free
  simp only [firstFree] at hf hw
  refine ⟨Nat.le_trans g.free h.1, ?_, ?_, ?_, ?_, fun pos i hp hi => ?_, fun j hj => ?_⟩
  · rw [← g.zero]; exact h.fe _ _ (by omega) (by omega)
  · rw [← g.d]; exact h.fe _ _ (by omega) (by omega)
  · rw [← g.d2]; exact h.fe _ _ (by omega) (by omega)
  · rw [← g.sqrtM1]; exact h.fe _ _ (by omega) (by omega)
  · rw [← g.base pos i hp hi]; exact h.pre (by simp only [baseO]; omega) (by simp only [baseO]; omega)
  · rw [← g.bi j hj]; exact h.pre (by simp only [biO]; omega) (by simp only [biO]; omega)

/-! ### Group operations -/

/-- Proves `Only` for a sequence of writes. -/
macro "only_puts" : tactic => `(tactic| repeat first | with_reducible assumption | (with_reducible refine Only.put ?_ _ _ (by first | exact .inl rfl | exact .inr (Nat.le_refl _) | (right; show _ ≤ _; omega))))

/-- Reads values after a sequence of writes. -/
macro "read_puts" "[" xs:Lean.Parser.Tactic.simpLemma,* "]" : tactic =>
  `(tactic| simp [fe_put, FeMul_length, FeSquare_length, FeSquare2_length, FeAdd_length, FeSub_length, FeCMove_length, FeNeg_length, fe_length, Prod.mk.injEq, $xs,*])

theorem new_spec (m : Mem) (w : Nat) :
    ∃ m0, m.new = (m.next, m0) ∧ Only m m0 w ∧ m0.next = m.next + 1 ∧
      (∀ p, p < m.next → ∀ f, m0.fe (p, f) = m.fe (p, f)) :=
  ⟨m.new.2, rfl, (Only.refl m w).new, rfl, fun p hp f => fe_new m p f (by omega)⟩

theorem projDouble_spec {m : Mem} {p r : Nat} (hp : p < m.next) (hr : r < m.next) (h1 : p ≠ r) :
    Only m (projDouble p r m) r ∧ (projDouble p r m).compl r = (m.proj p).Double := by
  obtain ⟨m0, hn, ho, -, f⟩ := new_spec m r
  have f0 := f p hp
  simp only [projDouble, hn, FeSquare_eq, FeSquare2_eq, FeAdd_eq, FeSub_eq]
  have hr' : m.next ≠ r := by omega
  have hp' : p ≠ m.next := by omega
  constructor
  · only_puts
  · read_puts [Mem.compl, Mem.proj, Proj.Double, h1, Ne.symm h1, hr', Ne.symm hr', hp', f0]

theorem geAdd_spec {m : Mem} {r p q : Nat} (hr : r < m.next) (hp : p < m.next) (hq : q < m.next) (h1 : p ≠ r) (h2 : q ≠ r) :
    Only m (geAdd r p q m) r ∧ (geAdd r p q m).compl r = Ed.geAdd (m.ext p) (m.cached q) := by
  obtain ⟨m0, hn, ho, -, f⟩ := new_spec m r
  have f0 := f p hp
  have f1 := f q hq
  simp only [geAdd, hn, FeMul_eq, FeAdd_eq, FeSub_eq]
  have hr' : m.next ≠ r := by omega
  have hp' : p ≠ m.next := by omega
  have hq' : q ≠ m.next := by omega
  constructor
  · only_puts
  · read_puts [Mem.compl, Mem.ext, Mem.cached, Ed.geAdd, h1, Ne.symm h1, h2, Ne.symm h2, hr', Ne.symm hr', hp', hq', f0, f1]

theorem geSub_spec {m : Mem} {r p q : Nat} (hr : r < m.next) (hp : p < m.next) (hq : q < m.next) (h1 : p ≠ r) (h2 : q ≠ r) :
    Only m (geSub r p q m) r ∧ (geSub r p q m).compl r = Ed.geSub (m.ext p) (m.cached q) := by
  obtain ⟨m0, hn, ho, -, f⟩ := new_spec m r
  have f0 := f p hp
  have f1 := f q hq
  simp only [geSub, hn, FeMul_eq, FeAdd_eq, FeSub_eq]
  have hr' : m.next ≠ r := by omega
  have hp' : p ≠ m.next := by omega
  have hq' : q ≠ m.next := by omega
  constructor
  · only_puts
  · read_puts [Mem.compl, Mem.ext, Mem.cached, Ed.geSub, h1, Ne.symm h1, h2, Ne.symm h2, hr', Ne.symm hr', hp', hq', f0, f1]

theorem geMixedAdd_spec {m : Mem} {r p q : Nat} (hr : r < m.next) (hp : p < m.next) (hq : q < m.next) (h1 : p ≠ r) (h2 : q ≠ r) :
    Only m (geMixedAdd r p q m) r ∧ (geMixedAdd r p q m).compl r = Ed.geMixedAdd (m.ext p) (m.pre q) := by
  obtain ⟨m0, hn, ho, -, f⟩ := new_spec m r
  have f0 := f p hp
  have f1 := f q hq
  simp only [geMixedAdd, hn, FeMul_eq, FeAdd_eq, FeSub_eq]
  have hr' : m.next ≠ r := by omega
  have hp' : p ≠ m.next := by omega
  have hq' : q ≠ m.next := by omega
  constructor
  · only_puts
  · read_puts [Mem.compl, Mem.ext, Mem.pre, Ed.geMixedAdd, h1, Ne.symm h1, h2, Ne.symm h2, hr', Ne.symm hr', hp', hq', f0, f1]

theorem geMixedSub_spec {m : Mem} {r p q : Nat} (hr : r < m.next) (hp : p < m.next) (hq : q < m.next) (h1 : p ≠ r) (h2 : q ≠ r) :
    Only m (geMixedSub r p q m) r ∧ (geMixedSub r p q m).compl r = Ed.geMixedSub (m.ext p) (m.pre q) := by
  obtain ⟨m0, hn, ho, -, f⟩ := new_spec m r
  have f0 := f p hp
  have f1 := f q hq
  simp only [geMixedSub, hn, FeMul_eq, FeAdd_eq, FeSub_eq]
  have hr' : m.next ≠ r := by omega
  have hp' : p ≠ m.next := by omega
  have hq' : q ≠ m.next := by omega
  constructor
  · only_puts
  · read_puts [Mem.compl, Mem.ext, Mem.pre, Ed.geMixedSub, h1, Ne.symm h1, h2, Ne.symm h2, hr', Ne.symm hr', hp', hq', f0, f1]

theorem toExtended_spec {m : Mem} {p r : Nat} (h1 : p ≠ r) :
    Only m (toExtended p r m) r ∧ (toExtended p r m).ext r = (m.compl p).ToExtended := by
  have ho := Only.refl m r
  simp only [toExtended, FeMul_eq]
  constructor
  · only_puts
  · read_puts [Mem.compl, Mem.ext, Compl.ToExtended, h1]

theorem complToProjective_spec {m : Mem} {p r : Nat} (h1 : p ≠ r) :
    Only m (complToProjective p r m) r ∧ (complToProjective p r m).proj r = (m.compl p).ToProjective := by
  have ho := Only.refl m r
  simp only [complToProjective, FeMul_eq]
  constructor
  · only_puts
  · read_puts [Mem.compl, Mem.proj, Compl.ToProjective, h1]

theorem extToProjective_spec {m : Mem} {p r : Nat} (h1 : p ≠ r) :
    Only m (extToProjective p r m) r ∧ (extToProjective p r m).proj r = (m.ext p).ToProjective := by
  have ho := Only.refl m r
  simp only [extToProjective, FeCopy_eq]
  constructor
  · only_puts
  · read_puts [Mem.ext, Mem.proj, Ext.ToProjective, h1]

theorem toCached_spec {m : Mem} {p r : Nat} (g : Globals m) (hr : firstFree ≤ r) (h1 : p ≠ r) :
    Only m (toCached p r m) r ∧ (toCached p r m).cached r = (m.ext p).ToCached := by
  have ho := Only.refl m r
  have h2 : 2 ≠ r := by simp only [firstFree] at hr; omega
  have hd := g.d2
  simp only [d2L] at hd
  simp only [toCached, d2L, FeAdd_eq, FeSub_eq, FeCopy_eq, FeMul_eq]
  constructor
  · only_puts
  · read_puts [Mem.ext, Mem.cached, Ext.ToCached, h1, h2, hd]

theorem extDouble_spec {m : Mem} {p r : Nat} (hp : p < m.next) (hr : r < m.next) (h1 : p ≠ r) :
    Only m (extDouble p r m) r ∧ (extDouble p r m).compl r = (m.ext p).Double := by
  obtain ⟨m0, hm0, ho, hn, -⟩ := new_spec m r
  simp only [extDouble, hm0]
  obtain ⟨a1, a2⟩ := extToProjective_spec (m := m0) (p := p) (r := m.next) (by omega)
  have ho1 : Only m (extToProjective p m.next m0) r := ho.trans a1 (.inr (Nat.le_refl _))
  have := a1.1
  obtain ⟨b1, b2⟩ := projDouble_spec (m := extToProjective p m.next m0) (p := m.next) (r := r) (by omega) (by omega) (by omega)
  refine ⟨ho1.trans b1 (.inl rfl), ?_⟩
  rw [b2, a2, ho.ext hp h1, Ext.Double]

theorem FeZero_spec {m m' : Mem} {w : Nat} (g : Globals m) (hw : firstFree ≤ w) (h : Only m m' w) (f : Nat) :
    FeZero (w, f) m' = m'.put (w, f) Ed.FeZero := FeZero_eq _ _ (g.only h hw).zero
theorem FeOne_spec {m m' : Mem} {w : Nat} (g : Globals m) (hw : firstFree ≤ w) (h : Only m m' w) (f : Nat) :
    FeOne (w, f) m' = m'.put (w, f) Ed.FeOne := FeOne_eq _ _ (g.only h hw).zero

theorem projZero_spec {m : Mem} {p : Nat} (g : Globals m) (hp : firstFree ≤ p) :
    Only m (projZero p m) p ∧ (projZero p m).proj p = Proj.Zero := by
  have ho := Only.refl m p
  have h1 := ho.put (p, 0) Ed.FeZero (.inl rfl)
  have h2 := h1.put (p, 1) Ed.FeOne (.inl rfl)
  simp only [projZero]
  rw [FeZero_spec g hp ho, FeOne_spec g hp h1, FeOne_spec g hp h2]
  constructor
  · only_puts
  · read_puts [Mem.proj, Proj.Zero, Ed.FeZero, Ed.FeOne]

theorem extZero_spec {m : Mem} {p : Nat} (g : Globals m) (hp : firstFree ≤ p) :
    Only m (extZero p m) p ∧ (extZero p m).ext p = Ext.Zero := by
  have ho := Only.refl m p
  have h1 := ho.put (p, 0) Ed.FeZero (.inl rfl)
  have h2 := h1.put (p, 1) Ed.FeOne (.inl rfl)
  have h3 := h2.put (p, 2) Ed.FeOne (.inl rfl)
  simp only [extZero]
  rw [FeZero_spec g hp ho, FeOne_spec g hp h1, FeOne_spec g hp h2, FeZero_spec g hp h3]
  constructor
  · only_puts
  · read_puts [Mem.ext, Ext.Zero, Ed.FeZero, Ed.FeOne]

theorem preZero_spec {m : Mem} {p : Nat} (g : Globals m) (hp : firstFree ≤ p) :
    Only m (preZero p m) p ∧ (preZero p m).pre p = PreComp.Zero := by
  have ho := Only.refl m p
  have h1 := ho.put (p, 0) Ed.FeOne (.inl rfl)
  have h2 := h1.put (p, 1) Ed.FeOne (.inl rfl)
  simp only [preZero]
  rw [FeOne_spec g hp ho, FeOne_spec g hp h1, FeZero_spec g hp h2]
  constructor
  · only_puts
  · read_puts [Mem.pre, PreComp.Zero, Ed.FeZero, Ed.FeOne]

theorem preCMove_spec {m : Mem} {t u : Nat} {b : Int} (h1 : u ≠ t) :
    Only m (preCMove t u b m) t ∧ (preCMove t u b m).pre t = (m.pre t).CMove (m.pre u) b := by
  have ho := Only.refl m t
  simp only [preCMove, FeCMove_eq]
  constructor
  · only_puts
  · read_puts [Mem.pre, PreComp.CMove, h1]

theorem preLoop_spec {m : Mem} {t pos : Nat} {c : Int} (g : Globals m) (ht : firstFree ≤ t) (hpos : pos < 32) (n : Nat) (hn : n ≤ 8) :
    let m' := (List.range n).foldl (fun m i => preCMove t (baseO pos i) (equal c (i + 1)) m) m
    Only m m' t ∧ m'.pre t = (List.range n).foldl (fun (t : PreComp) i => t.CMove (baseAt pos i) (equal c (i + 1))) (m.pre t) := by
  induction n with
  | zero => exact ⟨Only.refl _ _, rfl⟩
  | succ n ih =>
    obtain ⟨i1, i2⟩ := ih (by omega)
    rw [List.range_succ, List.foldl_append, List.foldl_append]
    simp only [List.foldl_cons, List.foldl_nil]
    generalize (List.range n).foldl (fun m i => preCMove t (baseO pos i) (equal c (i + 1)) m) m = m1 at *
    have hb : baseO pos n < firstFree := by simp only [baseO, firstFree]; omega
    obtain ⟨a1, a2⟩ := preCMove_spec (m := m1) (t := t) (u := baseO pos n) (b := equal c (n + 1)) (by omega)
    refine ⟨i1.trans a1 (.inl rfl), ?_⟩
    rw [a2, i2, (g.only i1 ht).base pos n hpos (by omega)]

theorem selectPoint_spec {m : Mem} {t pos : Nat} {b : Int} (g : Globals m) (ht : firstFree ≤ t) (htn : t < m.next) (hpos : pos < 32) :
    Only m (selectPoint t pos b m) t ∧ (selectPoint t pos b m).pre t = Ed.selectPoint pos b := by
  obtain ⟨m0, hm0, ho, hm1, -⟩ := new_spec m t
  simp only [selectPoint, hm0]
  obtain ⟨a1, a2⟩ := preZero_spec (p := t) (g.only ho ht) ht
  have o1 := ho.trans a1 (.inl rfl)
  generalize hc : wrap 32 (b - wrap 32 (and32 (wrap 32 (-negative b)) b * 2)) = c
  have hlt : m.next < (preZero t m0).next := by have := a1.1; omega
  generalize preZero t m0 = m1 at *
  obtain ⟨b1, b2⟩ := preLoop_spec (c := c) (g.only o1 ht) ht hpos 8 (Nat.le_refl _)
  have o2 := o1.trans b1 (.inl rfl)
  have hlt2 := Nat.lt_of_lt_of_le hlt b1.1
  generalize (List.range 8).foldl (fun m i => preCMove t (baseO pos i) (equal c (i + 1)) m) m1 = m2 at *
  have hne : t ≠ m.next := by omega
  simp only [FeCopy_eq, FeNeg_eq]
  have o3 : Only m (((m2.put (m.next, 0) (m2.fe (t, 1))).put (m.next, 1) ((m2.put (m.next, 0) (m2.fe (t, 1))).fe (t, 0))).put (m.next, 2)
      (Ed.FeNeg (((m2.put (m.next, 0) (m2.fe (t, 1))).put (m.next, 1) ((m2.put (m.next, 0) (m2.fe (t, 1))).fe (t, 0))).fe (t, 2)))) t := by
    only_puts
  obtain ⟨c1, c2⟩ := preCMove_spec (m := ((m2.put (m.next, 0) (m2.fe (t, 1))).put (m.next, 1) ((m2.put (m.next, 0) (m2.fe (t, 1))).fe (t, 0))).put (m.next, 2)
      (Ed.FeNeg (((m2.put (m.next, 0) (m2.fe (t, 1))).put (m.next, 1) ((m2.put (m.next, 0) (m2.fe (t, 1))).fe (t, 0))).fe (t, 2)))) (t := t) (u := m.next)
      (b := negative b) (Ne.symm hne)
  refine ⟨o3.trans c1 (.inl rfl), ?_⟩
  rw [c2, Ed.selectPoint]
  simp only [hc]
  rw [a2] at b2
  rw [← b2]
  read_puts [Mem.pre, hne, Ne.symm hne]

/-! ### Powers -/

/-- The last statement: `out` is written. -/
theorem last_put {m0 m : Mem} {n : Nat} {out : Loc} {v : FE} (hv : v.length = 10) (hn : n ≤ m.next) (hf : ∀ l : Loc, l.1 < n → m.fe l = m0.fe l) :
    n ≤ (m.put out v).next ∧ ∀ l, l.1 < n → (m.put out v).fe l = if l = out then v else m0.fe l :=
  ⟨hn, fun l hl => by rw [fe_put _ _ _ _ hv, hf l hl]⟩


theorem sqLoop_length (n : Nat) (t : FE) (h : t.length = 10) : (Ed.sqLoop n t).length = 10 := by
  rw [Ed.sqLoop]
  induction n - 1 with
  | zero => exact h
  | succ k _ => exact FeSquare_length _

theorem sqLoop_eq (n : Nat) (t : Loc) (m : Mem) : sqLoop n t m = m.put t (Ed.sqLoop n (m.fe t)) := by
  simp only [sqLoop, Ed.sqLoop]
  induction n - 1 with
  | zero => exact (put_self m t).symm
  | succ k ih =>
    rw [Nat.repeat, ih, FeSquare_eq, fe_put_same, put_put, Nat.repeat]
    have := sqLoop_length (k + 1) (m.fe t) (fe_length _ _)
    simpa only [Ed.sqLoop, Nat.add_sub_cancel] using this

/-- The four temporaries of `FeInvert` (three in `fePow22523`), allocated in state `m0`, hold `a b c d`; what was there before is unchanged. -/
structure Regs (m0 m : Mem) (a b c d : FE) : Prop where
  le : m0.next ≤ m.next
  fr : ∀ l : Loc, l.1 < m0.next → m.fe l = m0.fe l
  r0 : m.fe (m0.next, 0) = a
  r1 : m.fe (m0.next + 1, 0) = b
  r2 : m.fe (m0.next + 2, 0) = c
  r3 : m.fe (m0.next + 3, 0) = d

theorem Regs.put {m0 m : Mem} {a b c d : FE} (h : Regs m0 m a b c d) (k : Nat) (v : FE) (hv : v.length = 10) :
    Regs m0 (m.put (m0.next + k, 0) v) (if k = 0 then v else a) (if k = 1 then v else b) (if k = 2 then v else c) (if k = 3 then v else d) := by
  refine ⟨h.le, fun l hl => ?_, ?_, ?_, ?_, ?_⟩
  · rw [fe_put _ _ _ _ hv, if_neg (by rintro rfl; simp only at hl; omega), h.fr l hl]
  · rw [fe_put _ _ _ _ hv, ← h.r0]; congr 1; simp [Prod.mk.injEq]
    all_goals omega
  · rw [fe_put _ _ _ _ hv, ← h.r1]; congr 1; simp [Prod.mk.injEq]
    all_goals omega
  · rw [fe_put _ _ _ _ hv, ← h.r2]; congr 1; simp [Prod.mk.injEq]
    all_goals omega
  · rw [fe_put _ _ _ _ hv, ← h.r3]; congr 1; simp [Prod.mk.injEq]
    all_goals omega

section
variable {m0 m : Mem} {a b c d : FE} {z : Loc}
theorem Regs.sq0z (h : Regs m0 m a b c d) (hz : z.1 < m0.next) : Regs m0 (FeSquare (m0.next, 0) z m) (Ed.FeSquare (m0.fe z)) b c d := by
  rw [FeSquare_eq, h.fr z hz]; exact h.put 0 _ (FeSquare_length _)

theorem Regs.sq10 (h : Regs m0 m a b c d) : Regs m0 (FeSquare (m0.next + 1, 0) (m0.next, 0) m) a (Ed.FeSquare a) c d := by
  rw [FeSquare_eq, h.r0]; exact h.put 1 _ (FeSquare_length _)

theorem Regs.loop1 (h : Regs m0 m a b c d) (n : Nat) : Regs m0 (sqLoop n (m0.next + 1, 0) m) a (Ed.sqLoop n b) c d := by
  rw [sqLoop_eq, h.r1]; exact h.put 1 _ (sqLoop_length _ _ (h.r1 ▸ fe_length _ _))

theorem Regs.mul1z1 (h : Regs m0 m a b c d) (hz : z.1 < m0.next) : Regs m0 (FeMul (m0.next + 1, 0) z (m0.next + 1, 0) m) a (Ed.FeMul (m0.fe z) b) c d := by
  rw [FeMul_eq, h.fr z hz, h.r1]; exact h.put 1 _ (FeMul_length _ _)

theorem Regs.mul001 (h : Regs m0 m a b c d) : Regs m0 (FeMul (m0.next, 0) (m0.next, 0) (m0.next + 1, 0) m) (Ed.FeMul a b) b c d := by
  rw [FeMul_eq, h.r0, h.r1]; exact h.put 0 _ (FeMul_length _ _)

theorem Regs.sq20 (h : Regs m0 m a b c d) : Regs m0 (FeSquare (m0.next + 2, 0) (m0.next, 0) m) a b (Ed.FeSquare a) d := by
  rw [FeSquare_eq, h.r0]; exact h.put 2 _ (FeSquare_length _)

theorem Regs.mul112 (h : Regs m0 m a b c d) : Regs m0 (FeMul (m0.next + 1, 0) (m0.next + 1, 0) (m0.next + 2, 0) m) a (Ed.FeMul b c) c d := by
  rw [FeMul_eq, h.r1, h.r2]; exact h.put 1 _ (FeMul_length _ _)

theorem Regs.sq21 (h : Regs m0 m a b c d) : Regs m0 (FeSquare (m0.next + 2, 0) (m0.next + 1, 0) m) a b (Ed.FeSquare b) d := by
  rw [FeSquare_eq, h.r1]; exact h.put 2 _ (FeSquare_length _)

theorem Regs.loop2 (h : Regs m0 m a b c d) (n : Nat) : Regs m0 (sqLoop n (m0.next + 2, 0) m) a b (Ed.sqLoop n c) d := by
  rw [sqLoop_eq, h.r2]; exact h.put 2 _ (sqLoop_length _ _ (h.r2 ▸ fe_length _ _))

theorem Regs.mul121 (h : Regs m0 m a b c d) : Regs m0 (FeMul (m0.next + 1, 0) (m0.next + 2, 0) (m0.next + 1, 0) m) a (Ed.FeMul c b) c d := by
  rw [FeMul_eq, h.r2, h.r1]; exact h.put 1 _ (FeMul_length _ _)

theorem Regs.mul221 (h : Regs m0 m a b c d) : Regs m0 (FeMul (m0.next + 2, 0) (m0.next + 2, 0) (m0.next + 1, 0) m) a b (Ed.FeMul c b) d := by
  rw [FeMul_eq, h.r2, h.r1]; exact h.put 2 _ (FeMul_length _ _)

theorem Regs.sq32 (h : Regs m0 m a b c d) : Regs m0 (FeSquare (m0.next + 3, 0) (m0.next + 2, 0) m) a b c (Ed.FeSquare c) := by
  rw [FeSquare_eq, h.r2]; exact h.put 3 _ (FeSquare_length _)

theorem Regs.loop3 (h : Regs m0 m a b c d) (n : Nat) : Regs m0 (sqLoop n (m0.next + 3, 0) m) a b c (Ed.sqLoop n d) := by
  rw [sqLoop_eq, h.r3]; exact h.put 3 _ (sqLoop_length _ _ (h.r3 ▸ fe_length _ _))

theorem Regs.mul232 (h : Regs m0 m a b c d) : Regs m0 (FeMul (m0.next + 2, 0) (m0.next + 3, 0) (m0.next + 2, 0) m) a b (Ed.FeMul d c) d := by
  rw [FeMul_eq, h.r3, h.r2]; exact h.put 2 _ (FeMul_length _ _)

theorem Regs.sq22 (h : Regs m0 m a b c d) : Regs m0 (FeSquare (m0.next + 2, 0) (m0.next + 2, 0) m) a b (Ed.FeSquare c) d := by
  rw [FeSquare_eq, h.r2]; exact h.put 2 _ (FeSquare_length _)

theorem Regs.sq11 (h : Regs m0 m a b c d) : Regs m0 (FeSquare (m0.next + 1, 0) (m0.next + 1, 0) m) a (Ed.FeSquare b) c d := by
  rw [FeSquare_eq, h.r1]; exact h.put 1 _ (FeSquare_length _)

theorem Regs.loop0 (h : Regs m0 m a b c d) (n : Nat) : Regs m0 (sqLoop n (m0.next, 0) m) (Ed.sqLoop n a) b c d := by
  rw [sqLoop_eq, h.r0]; exact h.put 0 _ (sqLoop_length _ _ (h.r0 ▸ fe_length _ _))

theorem Regs.sq00 (h : Regs m0 m a b c d) : Regs m0 (FeSquare (m0.next, 0) (m0.next, 0) m) (Ed.FeSquare a) b c d := by
  rw [FeSquare_eq, h.r0]; exact h.put 0 _ (FeSquare_length _)

theorem Regs.mul010 (h : Regs m0 m a b c d) : Regs m0 (FeMul (m0.next, 0) (m0.next + 1, 0) (m0.next, 0) m) (Ed.FeMul b a) b c d := by
  rw [FeMul_eq, h.r1, h.r0]; exact h.put 0 _ (FeMul_length _ _)

theorem Regs.mul110 (h : Regs m0 m a b c d) : Regs m0 (FeMul (m0.next + 1, 0) (m0.next + 1, 0) (m0.next, 0) m) a (Ed.FeMul b a) c d := by
  rw [FeMul_eq, h.r1, h.r0]; exact h.put 1 _ (FeMul_length _ _)
end

/-- The statements of `FeInvert` after the declarations. -/
def FeInvertChain (out z t0 t1 t2 t3 : Loc) (m : Mem) : Mem :=
  m |> FeSquare t0 z |> FeSquare t1 t0 |> sqLoop 2 t1 |> FeMul t1 z t1 |> FeMul t0 t0 t1 |> FeSquare t2 t0 |> FeMul t1 t1 t2
    |> FeSquare t2 t1 |> sqLoop 5 t2 |> FeMul t1 t2 t1 |> FeSquare t2 t1 |> sqLoop 10 t2 |> FeMul t2 t2 t1
    |> FeSquare t3 t2 |> sqLoop 20 t3 |> FeMul t2 t3 t2 |> FeSquare t2 t2 |> sqLoop 10 t2 |> FeMul t1 t2 t1
    |> FeSquare t2 t1 |> sqLoop 50 t2 |> FeMul t2 t2 t1 |> FeSquare t3 t2 |> sqLoop 100 t3 |> FeMul t2 t3 t2
    |> FeSquare t2 t2 |> sqLoop 50 t2 |> FeMul t1 t2 t1 |> FeSquare t1 t1 |> sqLoop 5 t1 |> FeMul out t1 t0

theorem FeInvert_chain {m0 m : Mem} {a b c d : FE} (h : Regs m0 m a b c d) {out z : Loc} (hz : z.1 < m0.next)
    (v0 v1 v2 v3 v4 v5 v6 v7 v8 v9 v10 v11 v12 v13 v14 v15 v16 v17 v18 v19 v20 v21 v22 v23 v24 v25 v26 v27 v28 v29 : FE)
    (e_0 : v0 = Ed.FeSquare (m0.fe z)) (e_1 : v1 = Ed.FeSquare v0) (e_2 : v2 = Ed.sqLoop 2 v1) (e_3 : v3 = Ed.FeMul (m0.fe z) v2) (e_4 : v4 = Ed.FeMul v0 v3) (e_5 : v5 = Ed.FeSquare v4) (e_6 : v6 = Ed.FeMul v3 v5) (e_7 : v7 = Ed.FeSquare v6) (e_8 : v8 = Ed.sqLoop 5 v7) (e_9 : v9 = Ed.FeMul v8 v6) (e_10 : v10 = Ed.FeSquare v9) (e_11 : v11 = Ed.sqLoop 10 v10) (e_12 : v12 = Ed.FeMul v11 v9) (e_13 : v13 = Ed.FeSquare v12) (e_14 : v14 = Ed.sqLoop 20 v13) (e_15 : v15 = Ed.FeMul v14 v12) (e_16 : v16 = Ed.FeSquare v15) (e_17 : v17 = Ed.sqLoop 10 v16) (e_18 : v18 = Ed.FeMul v17 v9) (e_19 : v19 = Ed.FeSquare v18) (e_20 : v20 = Ed.sqLoop 50 v19) (e_21 : v21 = Ed.FeMul v20 v18) (e_22 : v22 = Ed.FeSquare v21) (e_23 : v23 = Ed.sqLoop 100 v22) (e_24 : v24 = Ed.FeMul v23 v21) (e_25 : v25 = Ed.FeSquare v24) (e_26 : v26 = Ed.sqLoop 50 v25) (e_27 : v27 = Ed.FeMul v26 v18) (e_28 : v28 = Ed.FeSquare v27) (e_29 : v29 = Ed.sqLoop 5 v28) :
    m0.next ≤ (FeInvertChain out z (m0.next, 0) (m0.next + 1, 0) (m0.next + 2, 0) (m0.next + 3, 0) m).next ∧ ∀ l, l.1 < m0.next → (FeInvertChain out z (m0.next, 0) (m0.next + 1, 0) (m0.next + 2, 0) (m0.next + 3, 0) m).fe l = if l = out then Ed.FeMul v29 v4 else m0.fe l := by
  unfold FeInvertChain
  have h := h.sq0z hz
  rw [← e_0] at h
  have h := h.sq10
  rw [← e_1] at h
  have h := h.loop1 2
  rw [← e_2] at h
  have h := h.mul1z1 hz
  rw [← e_3] at h
  have h := h.mul001
  rw [← e_4] at h
  have h := h.sq20
  rw [← e_5] at h
  have h := h.mul112
  rw [← e_6] at h
  have h := h.sq21
  rw [← e_7] at h
  have h := h.loop2 5
  rw [← e_8] at h
  have h := h.mul121
  rw [← e_9] at h
  have h := h.sq21
  rw [← e_10] at h
  have h := h.loop2 10
  rw [← e_11] at h
  have h := h.mul221
  rw [← e_12] at h
  have h := h.sq32
  rw [← e_13] at h
  have h := h.loop3 20
  rw [← e_14] at h
  have h := h.mul232
  rw [← e_15] at h
  have h := h.sq22
  rw [← e_16] at h
  have h := h.loop2 10
  rw [← e_17] at h
  have h := h.mul121
  rw [← e_18] at h
  have h := h.sq21
  rw [← e_19] at h
  have h := h.loop2 50
  rw [← e_20] at h
  have h := h.mul221
  rw [← e_21] at h
  have h := h.sq32
  rw [← e_22] at h
  have h := h.loop3 100
  rw [← e_23] at h
  have h := h.mul232
  rw [← e_24] at h
  have h := h.sq22
  rw [← e_25] at h
  have h := h.loop2 50
  rw [← e_26] at h
  have h := h.mul121
  rw [← e_27] at h
  have h := h.sq11
  rw [← e_28] at h
  have h := h.loop1 5
  rw [← e_29] at h
  generalize sqLoop 5 (m0.next + 1, 0) _ = m' at h ⊢
  rw [FeMul_eq, h.r1, h.r0]
  exact last_put (FeMul_length _ _) h.le h.fr

theorem FeInvert_spec {m : Mem} {out z : Loc} (hz : z.1 < m.next) :
    m.next ≤ (FeInvert out z m).next ∧
    ∀ l, l.1 < m.next → (FeInvert out z m).fe l = if l = out then Ed.FeInvert (m.fe z) else m.fe l := by
  obtain ⟨m1, e1, -, n1, f1⟩ := new_spec m 0
  obtain ⟨m2, e2, -, n2, f2⟩ := new_spec m1 0
  obtain ⟨m3, e3, -, n3, f3⟩ := new_spec m2 0
  obtain ⟨m4, e4, -, n4, f4⟩ := new_spec m3 0
  have hf : ∀ l : Loc, l.1 < m.next → m4.fe l = m.fe l := fun l hl => by
    rw [f4 l.1 (by omega) l.2, f3 l.1 (by omega) l.2, f2 l.1 (by omega) l.2, f1 l.1 (by omega) l.2]
  have h : Regs m m4 _ _ _ _ := ⟨by omega, hf, rfl, rfl, rfl, rfl⟩
  have hc : FeInvert out z m = FeInvertChain out z (m.next, 0) (m.next + 1, 0) (m.next + 2, 0) (m.next + 3, 0) m4 := by
    unfold FeInvert
    rw [e1]; dsimp only
    rw [e2]; dsimp only
    rw [e3]; dsimp only
    rw [e4]; dsimp only
    rw [n3, n2, n1, FeInvertChain]
  rw [hc]
  exact FeInvert_chain h hz _ _ _ _ _ _ _ _ _ _ _ _ _ _ _ _ _ _ _ _ _ _ _ _ _ _ _ _ _ _ rfl rfl rfl rfl rfl rfl rfl rfl rfl rfl rfl rfl rfl rfl rfl rfl rfl rfl rfl rfl rfl rfl rfl rfl rfl rfl rfl rfl rfl rfl

/-- The statements of `fePow22523` after the declarations. -/
def fePow22523Chain (out z t0 t1 t2 : Loc) (m : Mem) : Mem :=
  m |> FeSquare t0 z |> sqLoop 1 t0 |> FeSquare t1 t0 |> sqLoop 2 t1 |> FeMul t1 z t1 |> FeMul t0 t0 t1 |> FeSquare t0 t0 |> sqLoop 1 t0
    |> FeMul t0 t1 t0 |> FeSquare t1 t0 |> sqLoop 5 t1 |> FeMul t0 t1 t0 |> FeSquare t1 t0 |> sqLoop 10 t1 |> FeMul t1 t1 t0
    |> FeSquare t2 t1 |> sqLoop 20 t2 |> FeMul t1 t2 t1 |> FeSquare t1 t1 |> sqLoop 10 t1 |> FeMul t0 t1 t0
    |> FeSquare t1 t0 |> sqLoop 50 t1 |> FeMul t1 t1 t0 |> FeSquare t2 t1 |> sqLoop 100 t2 |> FeMul t1 t2 t1
    |> FeSquare t1 t1 |> sqLoop 50 t1 |> FeMul t0 t1 t0 |> FeSquare t0 t0 |> sqLoop 2 t0 |> FeMul out t0 z

theorem fePow22523_chain {m0 m : Mem} {a b c d : FE} (h : Regs m0 m a b c d) {out z : Loc} (hz : z.1 < m0.next)
    (v0 v1 v2 v3 v4 v5 v6 v7 v8 v9 v10 v11 v12 v13 v14 v15 v16 v17 v18 v19 v20 v21 v22 v23 v24 v25 v26 v27 v28 v29 v30 v31 : FE)
    (e_0 : v0 = Ed.FeSquare (m0.fe z)) (e_1 : v1 = Ed.sqLoop 1 v0) (e_2 : v2 = Ed.FeSquare v1) (e_3 : v3 = Ed.sqLoop 2 v2) (e_4 : v4 = Ed.FeMul (m0.fe z) v3) (e_5 : v5 = Ed.FeMul v1 v4) (e_6 : v6 = Ed.FeSquare v5) (e_7 : v7 = Ed.sqLoop 1 v6) (e_8 : v8 = Ed.FeMul v4 v7) (e_9 : v9 = Ed.FeSquare v8) (e_10 : v10 = Ed.sqLoop 5 v9) (e_11 : v11 = Ed.FeMul v10 v8) (e_12 : v12 = Ed.FeSquare v11) (e_13 : v13 = Ed.sqLoop 10 v12) (e_14 : v14 = Ed.FeMul v13 v11) (e_15 : v15 = Ed.FeSquare v14) (e_16 : v16 = Ed.sqLoop 20 v15) (e_17 : v17 = Ed.FeMul v16 v14) (e_18 : v18 = Ed.FeSquare v17) (e_19 : v19 = Ed.sqLoop 10 v18) (e_20 : v20 = Ed.FeMul v19 v11) (e_21 : v21 = Ed.FeSquare v20) (e_22 : v22 = Ed.sqLoop 50 v21) (e_23 : v23 = Ed.FeMul v22 v20) (e_24 : v24 = Ed.FeSquare v23) (e_25 : v25 = Ed.sqLoop 100 v24) (e_26 : v26 = Ed.FeMul v25 v23) (e_27 : v27 = Ed.FeSquare v26) (e_28 : v28 = Ed.sqLoop 50 v27) (e_29 : v29 = Ed.FeMul v28 v20) (e_30 : v30 = Ed.FeSquare v29) (e_31 : v31 = Ed.sqLoop 2 v30) :
    m0.next ≤ (fePow22523Chain out z (m0.next, 0) (m0.next + 1, 0) (m0.next + 2, 0) m).next ∧ ∀ l, l.1 < m0.next → (fePow22523Chain out z (m0.next, 0) (m0.next + 1, 0) (m0.next + 2, 0) m).fe l = if l = out then Ed.FeMul v31 (m0.fe z) else m0.fe l := by
  unfold fePow22523Chain
  have h := h.sq0z hz
  rw [← e_0] at h
  have h := h.loop0 1
  rw [← e_1] at h
  have h := h.sq10
  rw [← e_2] at h
  have h := h.loop1 2
  rw [← e_3] at h
  have h := h.mul1z1 hz
  rw [← e_4] at h
  have h := h.mul001
  rw [← e_5] at h
  have h := h.sq00
  rw [← e_6] at h
  have h := h.loop0 1
  rw [← e_7] at h
  have h := h.mul010
  rw [← e_8] at h
  have h := h.sq10
  rw [← e_9] at h
  have h := h.loop1 5
  rw [← e_10] at h
  have h := h.mul010
  rw [← e_11] at h
  have h := h.sq10
  rw [← e_12] at h
  have h := h.loop1 10
  rw [← e_13] at h
  have h := h.mul110
  rw [← e_14] at h
  have h := h.sq21
  rw [← e_15] at h
  have h := h.loop2 20
  rw [← e_16] at h
  have h := h.mul121
  rw [← e_17] at h
  have h := h.sq11
  rw [← e_18] at h
  have h := h.loop1 10
  rw [← e_19] at h
  have h := h.mul010
  rw [← e_20] at h
  have h := h.sq10
  rw [← e_21] at h
  have h := h.loop1 50
  rw [← e_22] at h
  have h := h.mul110
  rw [← e_23] at h
  have h := h.sq21
  rw [← e_24] at h
  have h := h.loop2 100
  rw [← e_25] at h
  have h := h.mul121
  rw [← e_26] at h
  have h := h.sq11
  rw [← e_27] at h
  have h := h.loop1 50
  rw [← e_28] at h
  have h := h.mul010
  rw [← e_29] at h
  have h := h.sq00
  rw [← e_30] at h
  have h := h.loop0 2
  rw [← e_31] at h
  generalize sqLoop 2 (m0.next, 0) _ = m' at h ⊢
  rw [FeMul_eq, h.r0, h.fr z hz]
  exact last_put (FeMul_length _ _) h.le h.fr

theorem fePow22523_spec {m : Mem} {out z : Loc} (hz : z.1 < m.next) :
    m.next ≤ (fePow22523 out z m).next ∧
    ∀ l, l.1 < m.next → (fePow22523 out z m).fe l = if l = out then Ed.fePow22523 (m.fe z) else m.fe l := by
  obtain ⟨m1, e1, -, n1, f1⟩ := new_spec m 0
  obtain ⟨m2, e2, -, n2, f2⟩ := new_spec m1 0
  obtain ⟨m3, e3, -, n3, f3⟩ := new_spec m2 0
  have hf : ∀ l : Loc, l.1 < m.next → m3.fe l = m.fe l := fun l hl => by
    rw [f3 l.1 (by omega) l.2, f2 l.1 (by omega) l.2, f1 l.1 (by omega) l.2]
  have h : Regs m m3 _ _ _ _ := ⟨by omega, hf, rfl, rfl, rfl, rfl⟩
  have hc : fePow22523 out z m = fePow22523Chain out z (m.next, 0) (m.next + 1, 0) (m.next + 2, 0) m3 := by
    unfold fePow22523
    rw [e1]; dsimp only
    rw [e2]; dsimp only
    rw [e3]; dsimp only

    rw [n2, n1, fePow22523Chain]
  rw [hc]
  exact fePow22523_chain h hz _ _ _ _ _ _ _ _ _ _ _ _ _ _ _ _ _ _ _ _ _ _ _ _ _ _ _ _ _ _ _ _ rfl rfl rfl rfl rfl rfl rfl rfl rfl rfl rfl rfl rfl rfl rfl rfl rfl rfl rfl rfl rfl rfl rfl rfl rfl rfl rfl rfl rfl rfl rfl rfl

/-! ### Encoding and decoding points -/

/-- `FeInvert` and `fePow22523` write `out` only. -/
theorem Only.of_loc {m m' : Mem} {out : Loc} {v : FE} (h : m.next ≤ m'.next ∧ ∀ l, l.1 < m.next → m'.fe l = if l = out then v else m.fe l) :
    Only m m' out.1 :=
  ⟨h.1, fun o f ho hw => by rw [h.2 (o, f) ho, if_neg (by rintro rfl; exact hw rfl)]⟩

theorem toBytes_spec {m : Mem} {p : Nat} (hp : p < m.next) (w : Nat) :
    Only m (toBytes p m).2 w ∧ (toBytes p m).1 = (m.proj p).ToBytes := by
  obtain ⟨m1, e1, o1, n1, f1⟩ := new_spec m w
  obtain ⟨m2, e2, o2, n2, f2⟩ := new_spec m1 w
  obtain ⟨m3, e3, o3, n3, f3⟩ := new_spec m2 w
  have ho : Only m m3 w := (o1.trans o2 (.inl rfl)).trans o3 (.inl rfl)
  have hf : ∀ f, m3.fe (p, f) = m.fe (p, f) := fun f => by rw [f3 p (by omega) f, f2 p (by omega) f, f1 p hp f]
  have hi := FeInvert_spec (m := m3) (out := (m.next, 0)) (z := (p, 2)) (by show p < _; omega)
  have ho' := ho.trans (Only.of_loc hi) (.inr (Nat.le_refl _))
  have h0 := hi.2 (m.next, 0) (by show m.next < _; omega)
  have h1 : ∀ f, (FeInvert (m.next, 0) (p, 2) m3).fe (p, f) = m.fe (p, f) := fun f => by
    rw [hi.2 (p, f) (by show p < _; omega), if_neg (by simp only [Prod.mk.injEq]; omega), hf]
  rw [if_pos rfl, hf] at h0
  unfold toBytes
  rw [e1]; dsimp only
  rw [e2]; dsimp only
  rw [e3]; dsimp only
  generalize FeInvert (m.next, 0) (p, 2) m3 = m4 at *
  simp only [FeMul_eq, FeToBytes_eq, FeIsNegative_eq, n1, n2]
  have hp0 : p ≠ m.next := by omega
  have hp1 : p ≠ m.next + 1 := by omega
  constructor
  · only_puts
  · read_puts [Proj.ToBytes, Mem.proj, h0, h1, hp0, hp1, FeToBytes_length]

theorem fromBytes_eq (p : Nat) (s : Bytes) (m m1 m2 m3 m4 m5 : Mem) (u v v3 vxx check : Nat) (e1 : m.new = (u, m1)) (e2 : m1.new = (v, m2))
    (e3 : m2.new = (v3, m3)) (e4 : m3.new = (vxx, m4)) (e5 : m4.new = (check, m5)) :
    fromBytes p s m =
      let m := fbAfter p u v v3 vxx check (fePow22523 (p, 0) (p, 0) (fbBefore p s u v v3 m5))
      let (nz, m) := FeIsNonZero (check, 0) m
      if nz = 1 then
        let m := FeAdd (check, 0) (vxx, 0) (u, 0) m
        let (nz, m) := FeIsNonZero (check, 0) m
        if nz = 1 then (false, m)
        else fbFinish p s (FeToBytes (p, 0) (FeMul (p, 0) (p, 0) sqrtM1L m)).2
      else fbFinish p s m := by
  unfold fromBytes
  rw [e1]; dsimp only
  rw [e2]; dsimp only
  rw [e3]; dsimp only
  rw [e4]; dsimp only
  rw [e5]

theorem fbFinish_spec {m : Mem} {p : Nat} {s : Bytes} :
    Only m (fbFinish p s m).2 p ∧ (fbFinish p s m).1 = true ∧
    let X := (Ed.FeIsNegative (m.fe (p, 0))).2
    let X := if (Ed.FeIsNegative (m.fe (p, 0))).1 ≠ goShr8 (s.getD 31 0) 7 then Ed.FeNeg X else X
    (fbFinish p s m).2.ext p = ⟨X, m.fe (p, 1), m.fe (p, 2), Ed.FeMul X (m.fe (p, 1))⟩ := by
  have ho := Only.refl m p
  unfold fbFinish
  simp only [FeIsNegative_eq]
  split
  · simp only [FeNeg_eq, FeMul_eq]
    refine ⟨?_, ?_, ?_⟩
    · only_puts
    · trivial
    · read_puts [Mem.ext, FeIsNegative_length]
  · simp only [FeMul_eq]
    refine ⟨?_, ?_, ?_⟩
    · only_puts
    · trivial
    · read_puts [Mem.ext, FeIsNegative_length]

theorem put_next (m : Mem) (p : Loc) (v : FE) : (m.put p v).next = m.next := rfl

/-- The second half of `Ext.FromBytes`. -/
def fixE (s : Bytes) (Y X : FE) : Option Ext :=
  some ⟨if (Ed.FeIsNegative X).1 ≠ goShr8 (s.getD 31 0) 7 then Ed.FeNeg (Ed.FeIsNegative X).2 else (Ed.FeIsNegative X).2, Y, Ed.FeOne,
    Ed.FeMul (if (Ed.FeIsNegative X).1 ≠ goShr8 (s.getD 31 0) 7 then Ed.FeNeg (Ed.FeIsNegative X).2 else (Ed.FeIsNegative X).2) Y⟩

theorem FromBytes_eq (s : Bytes) {Y U V V3 X VXX : FE} (hY : Y = Ed.FeFromBytes s) (hU : U = Ed.FeSub (Ed.FeSquare Y) Ed.FeOne)
    (hV : V = Ed.FeAdd (Ed.FeMul (Ed.FeSquare Y) Ed.d) Ed.FeOne) (hV3 : V3 = Ed.FeMul (Ed.FeSquare V) V)
    (hX : X = Ed.FeMul (Ed.FeMul (Ed.fePow22523 (Ed.FeMul (Ed.FeMul (Ed.FeSquare V3) V) U)) V3) U) (hVXX : VXX = Ed.FeMul (Ed.FeSquare X) V) :
    Ext.FromBytes s = if (Ed.FeIsNonZero (Ed.FeSub VXX U)).1 = 1 then
        if (Ed.FeIsNonZero (Ed.FeAdd VXX U)).1 = 1 then none else fixE s Y (Ed.FeToBytes (Ed.FeMul X Ed.SqrtM1)).2
      else fixE s Y X := by
  unfold Ext.FromBytes
  simp only [← hY]
  simp only [← hU, ← hV]
  simp only [← hV3]
  simp only [← hX]
  simp only [← hVXX, fixE]

theorem fbBefore_spec {m0 m : Mem} {p : Nat} {s : Bytes} {u v v3 : Nat} (g : Globals m) (hp : firstFree ≤ p) (ho : Only m0 m p)
    (hu : m0.next ≤ u) (hv : m0.next ≤ v) (hv3 : m0.next ≤ v3) (hpn : p < m0.next) (huv : u ≠ v) (huv3 : u ≠ v3) (hvv3 : v ≠ v3)
    (hf : firstFree ≤ m0.next) {Y U V V3 : FE} (hY : Y = Ed.FeFromBytes s) (hU : U = Ed.FeSub (Ed.FeSquare Y) Ed.FeOne)
    (hV : V = Ed.FeAdd (Ed.FeMul (Ed.FeSquare Y) Ed.d) Ed.FeOne) (hV3 : V3 = Ed.FeMul (Ed.FeSquare V) V) {m' : Mem} (hm' : m' = fbBefore p s u v v3 m) :
    Only m0 m' p ∧ m'.next = m.next ∧ m'.fe (p, 1) = Y ∧ m'.fe (p, 2) = Ed.FeOne ∧ m'.fe (u, 0) = U ∧ m'.fe (v, 0) = V ∧ m'.fe (v3, 0) = V3 ∧
      m'.fe (p, 0) = Ed.FeMul (Ed.FeMul (Ed.FeSquare V3) V) U := by
  have hd := g.d
  have h1 : (1 : Nat) ≠ p := by simp only [firstFree] at *; omega
  have h2 : (1 : Nat) ≠ u := by simp only [firstFree] at *; omega
  have h3 : p ≠ u := by omega
  have h4 : p ≠ v := by omega
  have h5 : p ≠ v3 := by omega
  have z1 := g.zero
  simp only [dL] at hd
  have hYl : Y.length = 10 := hY ▸ FeFromBytes_length s
  have h1l : Ed.FeOne.length = 10 := rfl
  simp only [fbBefore, FeFromBytes_eq, ← hY] at hm'
  have z2 : (m.put (p, 1) Y).fe zeroL = Ed.FeZero := by
    rw [fe_put_other _ _ _ _ (by simp only [zeroL, firstFree, ne_eq, Prod.mk.injEq] at *; omega), z1]
  rw [FeOne_eq _ _ z2] at hm'
  simp only [FeMul_eq, FeSquare_eq, FeSub_eq, FeAdd_eq] at hm'
  rw [hm', hV3, hV, hU]
  clear hY hV hV3 hU hm'
  generalize Ed.FeOne = one at *
  refine ⟨?_, ?_, ?_, ?_, ?_, ?_, ?_, ?_⟩
  · only_puts
  · simp only [put_next]
  all_goals
    read_puts [dL, h1, h2, h3, h4, h5, Ne.symm h3, Ne.symm h4, Ne.symm h5, huv, huv3, hvv3, Ne.symm huv, Ne.symm huv3, Ne.symm hvv3, hYl, h1l, hd]

theorem fbAfter_spec {m0 m : Mem} {p u v v3 vxx check : Nat} (ho : Only m0 m p)
    (hx : m0.next ≤ vxx) (hc : m0.next ≤ check) (h3 : p ≠ u) (h4 : p ≠ v) (h6 : p ≠ vxx) (h7 : p ≠ check)
    (h8 : u ≠ vxx) (h9 : v ≠ vxx) (h11 : u ≠ check) (h12 : vxx ≠ check) {X VXX : FE}
    (hX : X = Ed.FeMul (Ed.FeMul (m.fe (p, 0)) (m.fe (v3, 0))) (m.fe (u, 0)))
    (hV : VXX = Ed.FeMul (Ed.FeSquare X) (m.fe (v, 0))) {m' : Mem} (hm' : m' = fbAfter p u v v3 vxx check m) :
    Only m0 m' p ∧ m'.next = m.next ∧ m'.fe (p, 0) = X ∧ m'.fe (p, 1) = m.fe (p, 1) ∧ m'.fe (p, 2) = m.fe (p, 2) ∧ m'.fe (u, 0) = m.fe (u, 0) ∧
      m'.fe (vxx, 0) = VXX ∧ m'.fe (check, 0) = Ed.FeSub VXX (m.fe (u, 0)) := by
  simp only [fbAfter, FeMul_eq, FeSquare_eq, FeSub_eq] at hm'
  rw [hm', hV, hX]
  refine ⟨?_, ?_, ?_, ?_, ?_, ?_, ?_, ?_⟩
  · only_puts
  · simp only [put_next]
  all_goals
    read_puts [h3, h4, h6, h7, h8, h9, h11, h12, Ne.symm h3, Ne.symm h4, Ne.symm h6, Ne.symm h7, Ne.symm h8, Ne.symm h9,
      Ne.symm h11, Ne.symm h12]

/-- What `FromBytes` leaves, given its value. -/
theorem fromBytes_spec {m : Mem} {p : Nat} {s : Bytes} (g : Globals m) (hp : firstFree ≤ p) (hpn : p < m.next) :
    Only m (fromBytes p s m).2 p ∧
    match Ext.FromBytes s with
    | some P => (fromBytes p s m).1 = true ∧ (fromBytes p s m).2.ext p = P
    | none => (fromBytes p s m).1 = false := by
  obtain ⟨m1, e1, o1, n1, -⟩ := new_spec m p
  obtain ⟨m2, e2, o2, n2, -⟩ := new_spec m1 p
  obtain ⟨m3, e3, o3, n3, -⟩ := new_spec m2 p
  obtain ⟨m4, e4, o4, n4, -⟩ := new_spec m3 p
  obtain ⟨m5, e5, o5, n5, -⟩ := new_spec m4 p
  have ho : Only m m5 p := (((o1.trans o2 (.inl rfl)).trans o3 (.inl rfl)).trans o4 (.inl rfl)).trans o5 (.inl rfl)
  have hf := g.free
  have n6 : m5.next = m.next + 5 := by omega
  rw [n1] at e2; rw [n2, n1] at e3; rw [n3, n2, n1] at e4; rw [n4, n3, n2, n1] at e5
  rw [fromBytes_eq p s m m1 m2 m3 m4 m5 _ _ _ _ _ e1 e2 e3 e4 e5]
  clear e1 e2 e3 e4 e5 o1 o2 o3 o4 o5 n1 n2 n3 n4 n5
  generalize hu : m.next = u at *
  generalize hv : u + 1 = v at *
  generalize hv3 : v + 1 = v3 at *
  generalize hvxx : v3 + 1 = vxx at *
  generalize hcheck : vxx + 1 = check at *
  obtain ⟨Y, hY⟩ : ∃ Y, Y = Ed.FeFromBytes s := ⟨_, rfl⟩
  obtain ⟨U, hU⟩ : ∃ U, U = Ed.FeSub (Ed.FeSquare Y) Ed.FeOne := ⟨_, rfl⟩
  obtain ⟨V, hV⟩ : ∃ V, V = Ed.FeAdd (Ed.FeMul (Ed.FeSquare Y) Ed.d) Ed.FeOne := ⟨_, rfl⟩
  obtain ⟨V3, hV3⟩ : ∃ V3, V3 = Ed.FeMul (Ed.FeSquare V) V := ⟨_, rfl⟩
  obtain ⟨X, hX⟩ : ∃ X, X = Ed.FeMul (Ed.FeMul (Ed.fePow22523 (Ed.FeMul (Ed.FeMul (Ed.FeSquare V3) V) U)) V3) U := ⟨_, rfl⟩
  obtain ⟨VXX, hVXX⟩ : ∃ VXX, VXX = Ed.FeMul (Ed.FeSquare X) V := ⟨_, rfl⟩
  rw [FromBytes_eq s hY hU hV hV3 hX hVXX]
  obtain ⟨m6, hm6⟩ : ∃ m6, m6 = fbBefore p s u v v3 m5 := ⟨_, rfl⟩
  obtain ⟨b1, b2, b3, b4, b5, b6, b7, b8⟩ := fbBefore_spec (m0 := m) (g.only ho hp) hp ho (by omega) (by omega) (by omega) (by omega) (by omega)
    (by omega) (by omega) (by omega) hY hU hV hV3 hm6
  rw [← hm6]
  have hpow := fePow22523_spec (m := m6) (out := (p, 0)) (z := (p, 0)) (by show p < _; omega)
  have c1 := b1.trans (Only.of_loc hpow) (.inl rfl)
  have q0 := hpow.2 (p, 0) (by show p < _; omega)
  have q1 := hpow.2 (p, 1) (by show p < _; omega)
  have q2 := hpow.2 (p, 2) (by show p < _; omega)
  have q3 := hpow.2 (u, 0) (by show u < _; omega)
  have q4 := hpow.2 (v, 0) (by show v < _; omega)
  have q5 := hpow.2 (v3, 0) (by show v3 < _; omega)
  rw [if_pos rfl, b8] at q0
  rw [if_neg (by simp), b3] at q1
  rw [if_neg (by simp), b4] at q2
  rw [if_neg (by simp only [Prod.mk.injEq]; omega), b5] at q3
  rw [if_neg (by simp only [Prod.mk.injEq]; omega), b6] at q4
  rw [if_neg (by simp only [Prod.mk.injEq]; omega), b7] at q5
  generalize fePow22523 (p, 0) (p, 0) m6 = m7 at *
  rw [← q0, ← q3, ← q5] at hX
  rw [← q4] at hVXX
  obtain ⟨m8, hm8⟩ : ∃ m8, m8 = fbAfter p u v v3 vxx check m7 := ⟨_, rfl⟩
  obtain ⟨d1, d2, d3, d4, d5, d6, d7, d8⟩ := fbAfter_spec (m0 := m) (m := m7) (p := p) (u := u) (v := v) (v3 := v3)
    (vxx := vxx) (check := check) c1 (by omega) (by omega) (by omega) (by omega) (by omega) (by omega) (by omega)
    (by omega) (by omega) (by omega) hX hVXX hm8
  rw [← hm8]
  rw [q1] at d4
  rw [q2] at d5
  rw [q3] at d6
  rw [q3] at d8
  clear hX hVXX hV3 hV hU hY q0 q1 q2 q3 q4 q5 b1 b2 b3 b4 b5 b6 b7 b8 hpow c1 hm8 hm6
  have hs := (g.only d1 hp).sqrtM1
  simp only [sqrtM1L] at hs
  have h1 : (3 : Nat) ≠ check := by simp only [firstFree] at *; omega
  have h2 : p ≠ check := by omega
  have h3 : vxx ≠ check := by omega
  have h4 : u ≠ check := by omega
  have hl := FeIsNonZero_length
  have hl2 := FeToBytes_length
  simp only [FeIsNonZero_eq, d8]
  have l1 : ∀ f g : FE, f.length = 10 → g.length = 10 → (Ed.FeIsNonZero (Ed.FeAdd f g)).2.length = 10 :=
    fun f g h h' => hl _ (by rw [FeAdd_length, h, h']; rfl)
  have l2 : (Ed.FeIsNonZero (Ed.FeSub VXX U)).2.length = 10 := hl _ (d8 ▸ fe_length _ _)
  have l3 : (Ed.FeAdd VXX U).length = 10 := by rw [FeAdd_length, ← d7, ← d6, fe_length, fe_length]; rfl
  have l4 : (Ed.FeIsNonZero (Ed.FeAdd VXX U)).2.length = 10 := hl _ l3
  have o9 : Only m (m8.put (check, 0) (Ed.FeIsNonZero (Ed.FeSub VXX U)).2) p := d1.put _ _ (.inr (by show m.next ≤ check; omega))
  split
  · have w1 : (m8.put (check, 0) (Ed.FeIsNonZero (Ed.FeSub VXX U)).2).fe (vxx, 0) = VXX := by
      rw [fe_put_other _ _ _ _ (by simp only [ne_eq, Prod.mk.injEq]; omega), d7]
    have w2 : (m8.put (check, 0) (Ed.FeIsNonZero (Ed.FeSub VXX U)).2).fe (u, 0) = U := by
      rw [fe_put_other _ _ _ _ (by simp only [ne_eq, Prod.mk.injEq]; omega), d6]
    rw [FeAdd_eq, w1, w2, put_put, fe_put_same _ _ _ l3, put_put]
    split
    · exact ⟨d1.put _ _ (.inr (by show m.next ≤ check; omega)), rfl⟩
    · have o10 : Only m (m8.put (check, 0) (Ed.FeIsNonZero (Ed.FeAdd VXX U)).2) p := d1.put _ _ (.inr (by show m.next ≤ check; omega))
      have k0 : (m8.put (check, 0) (Ed.FeIsNonZero (Ed.FeAdd VXX U)).2).fe (p, 0) = X := by
        rw [fe_put_other _ _ _ _ (by simp only [ne_eq, Prod.mk.injEq]; omega), d3]
      have k1 : (m8.put (check, 0) (Ed.FeIsNonZero (Ed.FeAdd VXX U)).2).fe (p, 1) = Y := by
        rw [fe_put_other _ _ _ _ (by simp only [ne_eq, Prod.mk.injEq]; omega), d4]
      have k2 : (m8.put (check, 0) (Ed.FeIsNonZero (Ed.FeAdd VXX U)).2).fe (p, 2) = Ed.FeOne := by
        rw [fe_put_other _ _ _ _ (by simp only [ne_eq, Prod.mk.injEq]; omega), d5]
      have k3 : (m8.put (check, 0) (Ed.FeIsNonZero (Ed.FeAdd VXX U)).2).fe sqrtM1L = Ed.SqrtM1 := by
        rw [fe_put_other _ _ _ _ (by simp only [sqrtM1L, ne_eq, Prod.mk.injEq]; omega), (g.only d1 hp).sqrtM1]
      generalize m8.put (check, 0) (Ed.FeIsNonZero (Ed.FeAdd VXX U)).2 = m9 at *
      rw [FeMul_eq, k0, k3, FeToBytes_eq, fe_put_same _ _ _ (FeMul_length _ _), put_put]
      have k4 : (m9.put (p, 0) (Ed.FeToBytes (Ed.FeMul X Ed.SqrtM1)).2).fe (p, 0) = (Ed.FeToBytes (Ed.FeMul X Ed.SqrtM1)).2 :=
        fe_put_same _ _ _ (hl2 _ (FeMul_length _ _))
      have k5 : (m9.put (p, 0) (Ed.FeToBytes (Ed.FeMul X Ed.SqrtM1)).2).fe (p, 1) = Y := by rw [fe_put_other _ _ _ _ (by simp), k1]
      have k6 : (m9.put (p, 0) (Ed.FeToBytes (Ed.FeMul X Ed.SqrtM1)).2).fe (p, 2) = Ed.FeOne := by rw [fe_put_other _ _ _ _ (by simp), k2]
      have o11 : Only m (m9.put (p, 0) (Ed.FeToBytes (Ed.FeMul X Ed.SqrtM1)).2) p := o10.put _ _ (.inl rfl)
      dsimp only
      generalize m9.put (p, 0) (Ed.FeToBytes (Ed.FeMul X Ed.SqrtM1)).2 = m10 at *
      obtain ⟨r1, r2, r3⟩ := fbFinish_spec (m := m10) (p := p) (s := s)
      refine ⟨o11.trans r1 (.inl rfl), r2, ?_⟩
      rw [r3, k4, k5, k6]
  · have k0 : (m8.put (check, 0) (Ed.FeIsNonZero (Ed.FeSub VXX U)).2).fe (p, 0) = X := by
      rw [fe_put_other _ _ _ _ (by simp only [ne_eq, Prod.mk.injEq]; omega), d3]
    have k1 : (m8.put (check, 0) (Ed.FeIsNonZero (Ed.FeSub VXX U)).2).fe (p, 1) = Y := by
      rw [fe_put_other _ _ _ _ (by simp only [ne_eq, Prod.mk.injEq]; omega), d4]
    have k2 : (m8.put (check, 0) (Ed.FeIsNonZero (Ed.FeSub VXX U)).2).fe (p, 2) = Ed.FeOne := by
      rw [fe_put_other _ _ _ _ (by simp only [ne_eq, Prod.mk.injEq]; omega), d5]
    generalize m8.put (check, 0) (Ed.FeIsNonZero (Ed.FeSub VXX U)).2 = m9 at *
    obtain ⟨r1, r2, r3⟩ := fbFinish_spec (m := m9) (p := p) (s := s)
    refine ⟨o9.trans r1 (.inl rfl), r2, ?_⟩
    rw [r3, k0, k1, k2]

/-! ### Scalar multiplication -/

theorem baseLoop_range {m0 m : Mem} {e : List Int} {odd h t r : Nat} (g : Globals m0) (ho : Only m0 m h) (hh : firstFree ≤ h) (hn : h < m0.next)
    (ht : m0.next ≤ t) (hr : m0.next ≤ r) (htr : t ≠ r) (htn : t < m.next) (hrn : r < m.next) (n : Nat) (hn32 : n ≤ 32) :
    let m' := (List.range n).foldl (fun m pos => m |> selectPoint t pos (lget e (2 * pos + odd)) |> geMixedAdd r h t |> toExtended r h) m
    Only m0 m' h ∧ m.next ≤ m'.next ∧
      m'.ext h = (List.range n).foldl (fun h pos => (Ed.geMixedAdd h (Ed.selectPoint pos (lget e (2 * pos + odd)))).ToExtended) (m.ext h) := by
  induction n with
  | zero => exact ⟨ho, Nat.le_refl _, rfl⟩
  | succ n ih =>
    obtain ⟨i1, i2, i3⟩ := ih (by omega)
    rw [List.range_succ, List.foldl_append, List.foldl_append]
    simp only [List.foldl_cons, List.foldl_nil]
    generalize (List.range n).foldl (fun m pos => m |> selectPoint t pos (lget e (2 * pos + odd)) |> geMixedAdd r h t |> toExtended r h) m = m1 at *
    generalize lget e (2 * n + odd) = b
    have hf := g.free
    obtain ⟨a1, a2⟩ := selectPoint_spec (m := m1) (t := t) (pos := n) (b := b) (g.only i1 hh) (by omega) (by omega) (by omega)
    have a3 : (selectPoint t n b m1).ext h = m1.ext h := a1.ext (by have := i1.1; omega) (by omega)
    have o1 := i1.trans a1 (.inr ht)
    have a0 := a1.1
    generalize selectPoint t n b m1 = m2 at *
    have o1n := o1.1
    obtain ⟨b1, b2⟩ := geMixedAdd_spec (m := m2) (r := r) (p := h) (q := t) (by omega) (by omega) (by omega) (by omega) (by omega)
    have o2 := o1.trans b1 (.inr hr)
    have b0 := b1.1
    generalize geMixedAdd r h t m2 = m3 at *
    obtain ⟨c1, c2⟩ := toExtended_spec (m := m3) (p := r) (r := h) (by omega)
    have c0 := c1.1
    refine ⟨o2.trans c1 (.inl rfl), by omega, ?_⟩
    rw [c2, b2, a3, a2, i3]

theorem baseLoop_spec {m0 m : Mem} {e : List Int} {odd h t r : Nat} (g : Globals m0) (ho : Only m0 m h) (hh : firstFree ≤ h) (hn : h < m0.next)
    (ht : m0.next ≤ t) (hr : m0.next ≤ r) (htr : t ≠ r) (htn : t < m.next) (hrn : r < m.next) :
    Only m0 (baseLoop e odd h t r m) h ∧ m.next ≤ (baseLoop e odd h t r m).next ∧ (baseLoop e odd h t r m).ext h = Ed.baseLoop e odd (m.ext h) :=
  baseLoop_range g ho hh hn ht hr htr htn hrn 32 (Nat.le_refl _)

theorem GeScalarMultBase_spec {m : Mem} {h : Nat} {a : Bytes} (g : Globals m) (hh : firstFree ≤ h) (hn : h < m.next) :
    Only m (GeScalarMultBase h a m) h ∧ (GeScalarMultBase h a m).ext h = Ed.GeScalarMultBase a := by
  unfold GeScalarMultBase Ed.GeScalarMultBase
  generalize recode 0 (nibbles a) = e
  dsimp only
  obtain ⟨a1, a2⟩ := extZero_spec g hh
  have a0 := a1.1
  generalize extZero h m = m1 at *
  obtain ⟨m2, e2, o2, n2, f2⟩ := new_spec m1 h
  obtain ⟨m3, e3, o3, n3, f3⟩ := new_spec m2 h
  rw [e2, e3]
  have o := (a1.trans o2 (.inl rfl)).trans o3 (.inl rfl)
  have a3 : m3.ext h = Ext.Zero := by
    simp only [Mem.ext, f3 h (by omega), f2 h (by omega)]; exact a2
  rw [n2]
  generalize ht : m1.next = t at *
  generalize hr : t + 1 = r at *
  rw [← a3]
  obtain ⟨b1, b2, b3⟩ := baseLoop_spec (m0 := m) (m := m3) (e := e) (odd := 1) (h := h) (t := t) (r := r) g o hh hn (by omega) (by omega) (by omega)
    (by omega) (by omega)
  rw [← b3]
  generalize baseLoop e 1 h t r m3 = m4 at *
  obtain ⟨m5, e5, o5, n5, f5⟩ := new_spec m4 h
  rw [e5]
  have o := b1.trans o5 (.inl rfl)
  have b4 : m5.ext h = m4.ext h := by simp only [Mem.ext, f5 h (by omega)]
  rw [← b4]
  generalize hs : m4.next = s at *
  -- four doublings
  obtain ⟨c1, c2⟩ := extDouble_spec (m := m5) (p := h) (r := r) (by omega) (by omega) (by omega)
  have o := o.trans c1 (.inr (by omega))
  have c0 := c1.1
  rw [← c2]
  generalize extDouble h r m5 = m6 at *
  obtain ⟨c1, c2⟩ := complToProjective_spec (m := m6) (p := r) (r := s) (by omega)
  have o := o.trans c1 (.inr (by omega))
  have c3 := c1.1
  rw [← c2]
  generalize complToProjective r s m6 = m7 at *
  obtain ⟨c1, c2⟩ := projDouble_spec (m := m7) (p := s) (r := r) (by omega) (by omega) (by omega)
  have o := o.trans c1 (.inr (by omega))
  have c4 := c1.1
  rw [← c2]
  generalize projDouble s r m7 = m8 at *
  obtain ⟨c1, c2⟩ := complToProjective_spec (m := m8) (p := r) (r := s) (by omega)
  have o := o.trans c1 (.inr (by omega))
  have c5 := c1.1
  rw [← c2]
  generalize complToProjective r s m8 = m9 at *
  obtain ⟨c1, c2⟩ := projDouble_spec (m := m9) (p := s) (r := r) (by omega) (by omega) (by omega)
  have o := o.trans c1 (.inr (by omega))
  have c6 := c1.1
  rw [← c2]
  generalize projDouble s r m9 = m10 at *
  obtain ⟨c1, c2⟩ := complToProjective_spec (m := m10) (p := r) (r := s) (by omega)
  have o := o.trans c1 (.inr (by omega))
  have c7 := c1.1
  rw [← c2]
  generalize complToProjective r s m10 = m11 at *
  obtain ⟨c1, c2⟩ := projDouble_spec (m := m11) (p := s) (r := r) (by omega) (by omega) (by omega)
  have o := o.trans c1 (.inr (by omega))
  have c8 := c1.1
  rw [← c2]
  generalize projDouble s r m11 = m12 at *
  obtain ⟨c1, c2⟩ := toExtended_spec (m := m12) (p := r) (r := h) (by omega)
  have o := o.trans c1 (.inl rfl)
  have c9 := c1.1
  rw [← c2]
  generalize toExtended r h m12 = m13 at *
  obtain ⟨b1, b2, b3⟩ := baseLoop_spec (m0 := m) (m := m13) (e := e) (odd := 0) (h := h) (t := t) (r := r) g o hh hn (by omega) (by omega) (by omega)
    (by omega) (by omega)
  exact ⟨b1, b3⟩

end Cardano.Ed.Ptr
