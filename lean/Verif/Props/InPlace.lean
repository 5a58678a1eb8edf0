import Verif.Ed25519.PointersDouble
import Verif.Bip32.SignPointers
import Verif.Props.Sign
/-!
# Property C104: the curve package with pointers

Results may overwrite arguments, nothing but the result is written, and the tables of the package survive every sequence of calls.
-/
set_option autoImplicit false

namespace Cardano.Props
open Ed Ed.Ptr Bip32

attribute [local irreducible] Ed.FeMul Ed.FeSquare Ed.FeSquare2 Ed.FeAdd Ed.FeSub Ed.FeNeg Ed.FeInvert Ed.fePow22523 Ed.FeToBytes
  Ed.FeFromBytes Ed.GeScalarMultBase Ed.GeDoubleScalarMultVartime Ext.FromBytes Proj.ToBytes Ext.ToBytes Bd fz base bi baseAt B

/-! ### Fields of variables -/

/-- Everything except the field element `h` has the same value in both states. -/
def SameExcept (h : Loc) (m m' : Mem) : Prop := m.next ≤ m'.next ∧ ∀ l : Loc, l.1 < m.next → l ≠ h → m'.fe l = m.fe l

theorem SameExcept.put (m : Mem) (h : Loc) (v : FE) : SameExcept h m (m.put h v) :=
  ⟨Nat.le_refl _, fun _ _ hl => fe_put_other _ _ _ _ hl⟩

/-- **C104** (addition, subtraction, negation and copies in place). `h`, `f` and `g` are any three pointers, equal or not. -/
theorem C104_linear (m : Mem) (h f g : Loc) (hf : Bounded 1 (m.fe f)) (hg : Bounded 1 (m.fe g)) :
    (value ((FeAdd h f g m).fe h) = value (m.fe f) + value (m.fe g) ∧ Bounded 2 ((FeAdd h f g m).fe h) ∧ SameExcept h m (FeAdd h f g m)) ∧
    (value ((FeSub h f g m).fe h) = value (m.fe f) - value (m.fe g) ∧ Bounded 2 ((FeSub h f g m).fe h) ∧ SameExcept h m (FeSub h f g m)) ∧
    (value ((FeNeg h f m).fe h) = -value (m.fe f) ∧ Bounded 1 ((FeNeg h f m).fe h) ∧ SameExcept h m (FeNeg h f m)) ∧
    ((FeCopy h f m).fe h = m.fe f ∧ SameExcept h m (FeCopy h f m)) := by
  obtain ⟨a1, a2⟩ := C39_add _ _ hf hg
  obtain ⟨b1, b2⟩ := C39_sub _ _ hf hg
  obtain ⟨c1, c2⟩ := C39_neg _ hf
  rw [FeAdd_eq, FeSub_eq, FeNeg_eq, FeCopy_eq, fe_put_same _ _ _ a1.size, fe_put_same _ _ _ b1.size, fe_put_same _ _ _ c1.size,
    fe_put_same _ _ _ (fe_length _ _)]
  exact ⟨⟨a2, a1, .put ..⟩, ⟨b2, b1, .put ..⟩, ⟨c2, c1, .put ..⟩, rfl, .put ..⟩

/-- **C104** (multiplication, squares and inverses in place). -/
theorem C104_multiplicative (m : Mem) (h f g : Loc) (hf : Bounded 2 (m.fe f)) (hg : Bounded 2 (m.fe g)) (hh : h.1 < m.next) (hfn : f.1 < m.next) :
    (value ((FeMul h f g m).fe h) ≡ value (m.fe f) * value (m.fe g) [ZMOD P] ∧ Bounded 1 ((FeMul h f g m).fe h) ∧ SameExcept h m (FeMul h f g m)) ∧
    (value ((FeSquare h f m).fe h) ≡ value (m.fe f) ^ 2 [ZMOD P] ∧ Bounded 1 ((FeSquare h f m).fe h) ∧ SameExcept h m (FeSquare h f m)) ∧
    ((¬ (P : Int) ∣ value (m.fe f) → value (m.fe f) * value ((FeInvert h f m).fe h) ≡ 1 [ZMOD P]) ∧
      ((P : Int) ∣ value (m.fe f) → (P : Int) ∣ value ((FeInvert h f m).fe h)) ∧ Bounded 1 ((FeInvert h f m).fe h) ∧
      SameExcept h m (FeInvert h f m)) := by
  obtain ⟨a1, a2⟩ := C39_mul _ _ hf hg
  obtain ⟨b1, b2⟩ := C39_square _ hf
  obtain ⟨c1, c2, c3⟩ := C39_invert _ hf
  obtain ⟨d1, d2⟩ := FeInvert_spec (m := m) (out := h) (z := f) hfn
  have e : (FeInvert h f m).fe h = Ed.FeInvert (m.fe f) := by rw [d2 h hh, if_pos rfl]
  rw [FeMul_eq, FeSquare_eq, fe_put_same _ _ _ a1.size, fe_put_same _ _ _ b1.size, e]
  exact ⟨⟨a2, a1, .put ..⟩, ⟨b2, b1, .put ..⟩, c2, c3, c1, d1, fun l hl hn => by rw [d2 l hl, if_neg hn]⟩

/-! ### Group elements -/

/-- Everything except variable `w` has the same value in both states. -/
def OnlyChanges (w : Nat) (m m' : Mem) : Prop := m.next ≤ m'.next ∧ ∀ o f, o < m.next → o ≠ w → m'.fe (o, f) = m.fe (o, f)

/-- **C104** (group operations). Each writes its result only, through a pointer of another type than its arguments. -/
theorem C104_group (m : Mem) (r p q c : Nat) (A A' : Pt) (hr : r < m.next) (hp : p < m.next) (hq : q < m.next) (hc : c < m.next)
    (h1 : p ≠ r) (h2 : q ≠ r) (h3 : c ≠ r) (hA : IsExt (m.ext p) A) (hB : IsPreComp (m.pre q) A') (B' : Ext) (A'' : Pt) (hB' : IsExt B' A'')
    (hC : m.cached c = B'.ToCached) :
    (IsCompl ((geMixedAdd r p q m).compl r) (A + A') ∧ OnlyChanges r m (geMixedAdd r p q m)) ∧
    (IsCompl ((geMixedSub r p q m).compl r) (A - A') ∧ OnlyChanges r m (geMixedSub r p q m)) ∧
    (IsCompl ((geAdd r p c m).compl r) (A + A'') ∧ OnlyChanges r m (geAdd r p c m)) ∧
    (IsCompl ((geSub r p c m).compl r) (A - A'') ∧ OnlyChanges r m (geSub r p c m)) ∧
    (IsCompl ((extDouble p r m).compl r) (2 • A) ∧ OnlyChanges r m (extDouble p r m)) := by
  obtain ⟨a1, a2⟩ := geMixedAdd_spec hr hp hq h1 h2
  obtain ⟨b1, b2⟩ := geMixedSub_spec hr hp hq h1 h2
  obtain ⟨c1, c2⟩ := geAdd_spec hr hp hc h1 h3
  obtain ⟨d1, d2⟩ := geSub_spec hr hp hc h1 h3
  obtain ⟨e1, e2⟩ := extDouble_spec hp hr h1
  rw [a2, b2, c2, d2, e2, hC]
  obtain ⟨x1, x2⟩ := C41_mixed _ _ _ _ hA hB
  obtain ⟨y1, y2⟩ := C41_add_sub _ _ _ _ hA hB'
  have z := (isCompl_iff _ _).2 (Ext.double_rep ((isExt_iff _ _).1 hA))
  rw [← two_nsmul] at z
  exact ⟨⟨x1, a1⟩, ⟨x2, b1⟩, ⟨y1, c1⟩, ⟨y2, d1⟩, z, e1⟩

/-! ### Sequences of calls -/

/-- A call of an exported function of the package. -/
inductive Call
  | feZero (h : Loc) | feOne (h : Loc) | feAdd (h f g : Loc) | feSub (h f g : Loc) | feCopy (h f : Loc) | feCMove (f g : Loc) (b : Int)
  | feFromBytes (h : Loc) (s : Bytes) | feToBytes (f : Loc) | feIsNegative (f : Loc) | feIsNonZero (f : Loc)
  | feNeg (h f : Loc) | feMul (h f g : Loc) | feSquare (h f : Loc) | feSquare2 (h f : Loc) | feInvert (h f : Loc)
  | projZero (p : Nat) | projDouble (p r : Nat) | toBytes (p : Nat) | extZero (p : Nat) | extDouble (p r : Nat) | extToCached (p r : Nat)
  | extToProjective (p r : Nat) | fromBytes (p : Nat) (s : Bytes) | complToProjective (p r : Nat) | complToExtended (p r : Nat)
  | preZero (p : Nat) | preCMove (t u : Nat) (b : Int) | scalarMultBase (h : Nat) (a : Bytes) | doubleScalarMult (r : Nat) (a : Bytes) (A : Nat) (b : Bytes)

/-- The memory after the call. -/
def Call.run (m : Mem) : Call → Mem
  | feZero h => FeZero h m
  | feOne h => FeOne h m
  | feAdd h f g => FeAdd h f g m
  | feSub h f g => FeSub h f g m
  | feCopy h f => FeCopy h f m
  | feCMove f g b => FeCMove f g b m
  | feFromBytes h s => FeFromBytes h s m
  | feToBytes f => (FeToBytes f m).2
  | feIsNegative f => (FeIsNegative f m).2
  | feIsNonZero f => (FeIsNonZero f m).2
  | feNeg h f => FeNeg h f m
  | feMul h f g => FeMul h f g m
  | feSquare h f => FeSquare h f m
  | feSquare2 h f => FeSquare2 h f m
  | feInvert h f => FeInvert h f m
  | projZero p => Ptr.projZero p m
  | projDouble p r => Ptr.projDouble p r m
  | toBytes p => (Ptr.toBytes p m).2
  | extZero p => Ptr.extZero p m
  | extDouble p r => Ptr.extDouble p r m
  | extToCached p r => Ptr.toCached p r m
  | extToProjective p r => Ptr.extToProjective p r m
  | fromBytes p s => (Ptr.fromBytes p s m).2
  | complToProjective p r => Ptr.complToProjective p r m
  | complToExtended p r => Ptr.toExtended p r m
  | preZero p => Ptr.preZero p m
  | preCMove t u b => Ptr.preCMove t u b m
  | scalarMultBase h a => Ptr.GeScalarMultBase h a m
  | doubleScalarMult r a A b => Ptr.GeDoubleScalarMultVartime r a A b m

/-- What the call writes (the variable it points into), and what it reads. `FeToBytes`, `FeIsNegative` and `FeIsNonZero` write their argument. -/
def Call.writes : Call → Option Nat
  | feZero h | feOne h | feAdd h _ _ | feSub h _ _ | feCopy h _ | feCMove h _ _ | feFromBytes h _ | feToBytes h | feIsNegative h | feIsNonZero h
  | feNeg h _ | feMul h _ _ | feSquare h _ | feSquare2 h _ | feInvert h _ => some h.1
  | toBytes _ => none
  | projZero r | projDouble _ r | extZero r | extDouble _ r | extToCached _ r
  | extToProjective _ r | fromBytes r _ | complToProjective _ r | complToExtended _ r
  | preZero r | preCMove r _ _ | scalarMultBase r _ | doubleScalarMult r _ _ _ => some r

@[inherit_doc Call.writes] def Call.reads : Call → List Nat
  | feZero _ | feOne _ | feFromBytes _ _ | projZero _ | extZero _ | fromBytes _ _ | preZero _ | scalarMultBase _ _ => []
  | feToBytes f | feIsNegative f | feIsNonZero f | feCopy _ f | feNeg _ f | feSquare _ f | feSquare2 _ f | feInvert _ f | feCMove _ f _ => [f.1]
  | feAdd _ f g | feSub _ f g | feMul _ f g => [f.1, g.1]
  | projDouble p _ | toBytes p | extDouble p _ | extToCached p _ | extToProjective p _ | complToProjective p _ | complToExtended p _ | preCMove _ p _ => [p]
  | doubleScalarMult _ _ A _ => [A]

/-- Calls a program can make: it writes to variables of its own, pointers are to existing variables, arguments and result of different types
are different variables, and the scalars of `GeDoubleScalarMultVartime` are in its range. -/
structure Call.Ok (m : Mem) (c : Call) : Prop where
  own : ∀ w, c.writes = some w → firstFree ≤ w ∧ w < m.next
  known : ∀ o ∈ c.reads, o < m.next
  types : match c with
    | projDouble p r | extDouble p r | extToCached p r | extToProjective p r | complToProjective p r | complToExtended p r => p ≠ r
    | _ => True
  scalars : match c with
    | doubleScalarMult _ a _ b => a.length = 32 ∧ leNat a < 2 ^ 255 ∧ b.length = 32 ∧ leNat b < 2 ^ 255
    | _ => True

/-- Calls one after the other, each allowed in the state in which it is made. -/
inductive Calls : Mem → List Call → Mem → Prop
  | nil (m : Mem) : Calls m [] m
  | cons {m m' : Mem} {c : Call} {cs : List Call} (h : c.Ok m) (t : Calls (c.run m) cs m') : Calls m (c :: cs) m'

theorem preCMove_only {m : Mem} {t u : Nat} {b : Int} : Only m (Ptr.preCMove t u b m) t := by
  have ho := Only.refl m t
  simp only [Ptr.preCMove, FeCMove_eq]
  only_puts

theorem only_put (m : Mem) (p : Loc) (v : FE) : Only m (m.put p v) p.1 := (Only.refl m p.1).put p v (.inl rfl)

theorem Call.only {m : Mem} {c : Call} (g : Globals m) (h : c.Ok m) : ∃ w, (c.writes = none ∨ c.writes = some w) ∧ firstFree ≤ w ∧ Only m (c.run m) w := by
  have hf := g.free
  cases c with
  | toBytes p => exact ⟨m.next, .inl rfl, hf, (toBytes_spec (h.known p (by simp [Call.reads])) _).1⟩
  | feZero l => exact ⟨_, .inr rfl, (h.own _ rfl).1, by rw [Call.run, FeZero_eq _ _ g.zero]; exact only_put ..⟩
  | feOne l => exact ⟨_, .inr rfl, (h.own _ rfl).1, by rw [Call.run, FeOne_eq _ _ g.zero]; exact only_put ..⟩
  | feAdd => exact ⟨_, .inr rfl, (h.own _ rfl).1, by rw [Call.run, FeAdd_eq]; exact only_put ..⟩
  | feSub => exact ⟨_, .inr rfl, (h.own _ rfl).1, by rw [Call.run, FeSub_eq]; exact only_put ..⟩
  | feCopy => exact ⟨_, .inr rfl, (h.own _ rfl).1, by rw [Call.run, FeCopy_eq]; exact only_put ..⟩
  | feCMove => exact ⟨_, .inr rfl, (h.own _ rfl).1, by rw [Call.run, FeCMove_eq]; exact only_put ..⟩
  | feFromBytes => exact ⟨_, .inr rfl, (h.own _ rfl).1, by rw [Call.run, FeFromBytes_eq]; exact only_put ..⟩
  | feToBytes => exact ⟨_, .inr rfl, (h.own _ rfl).1, by rw [Call.run, FeToBytes_eq]; exact only_put ..⟩
  | feIsNegative => exact ⟨_, .inr rfl, (h.own _ rfl).1, by rw [Call.run, FeIsNegative_eq]; exact only_put ..⟩
  | feIsNonZero => exact ⟨_, .inr rfl, (h.own _ rfl).1, by rw [Call.run, FeIsNonZero_eq]; exact only_put ..⟩
  | feNeg => exact ⟨_, .inr rfl, (h.own _ rfl).1, by rw [Call.run, FeNeg_eq]; exact only_put ..⟩
  | feMul => exact ⟨_, .inr rfl, (h.own _ rfl).1, by rw [Call.run, FeMul_eq]; exact only_put ..⟩
  | feSquare => exact ⟨_, .inr rfl, (h.own _ rfl).1, by rw [Call.run, FeSquare_eq]; exact only_put ..⟩
  | feSquare2 => exact ⟨_, .inr rfl, (h.own _ rfl).1, by rw [Call.run, FeSquare2_eq]; exact only_put ..⟩
  | feInvert o f => exact ⟨_, .inr rfl, (h.own _ rfl).1, Only.of_loc (FeInvert_spec (h.known f.1 (by simp [Call.reads])))⟩
  | projZero p => exact ⟨_, .inr rfl, (h.own _ rfl).1, (projZero_spec g (h.own _ rfl).1).1⟩
  | projDouble p r => exact ⟨_, .inr rfl, (h.own _ rfl).1, (projDouble_spec (h.known p (by simp [Call.reads])) (h.own _ rfl).2 h.types).1⟩
  | extZero p => exact ⟨_, .inr rfl, (h.own _ rfl).1, (extZero_spec g (h.own _ rfl).1).1⟩
  | extDouble p r => exact ⟨_, .inr rfl, (h.own _ rfl).1, (extDouble_spec (h.known p (by simp [Call.reads])) (h.own _ rfl).2 h.types).1⟩
  | extToCached p r => exact ⟨_, .inr rfl, (h.own _ rfl).1, (toCached_spec g (h.own _ rfl).1 h.types).1⟩
  | extToProjective p r => exact ⟨_, .inr rfl, (h.own _ rfl).1, (extToProjective_spec h.types).1⟩
  | fromBytes p s => exact ⟨_, .inr rfl, (h.own _ rfl).1, (Ptr.fromBytes_spec g (h.own _ rfl).1 (h.own _ rfl).2).1⟩
  | complToProjective p r => exact ⟨_, .inr rfl, (h.own _ rfl).1, (complToProjective_spec h.types).1⟩
  | complToExtended p r => exact ⟨_, .inr rfl, (h.own _ rfl).1, (toExtended_spec h.types).1⟩
  | preZero p => exact ⟨_, .inr rfl, (h.own _ rfl).1, (preZero_spec g (h.own _ rfl).1).1⟩
  | preCMove t u b => exact ⟨_, .inr rfl, (h.own _ rfl).1, preCMove_only⟩
  | scalarMultBase o a => exact ⟨_, .inr rfl, (h.own _ rfl).1, (GeScalarMultBase_spec g (h.own _ rfl).1 (h.own _ rfl).2).1⟩
  | doubleScalarMult r a A b =>
    obtain ⟨h1, h2, h3, h4⟩ := h.scalars
    exact ⟨_, .inr rfl, (h.own _ rfl).1, (GeDoubleScalarMultVartime_spec g (h.own _ rfl).1 (h.own _ rfl).2 (h.known A (by simp [Call.reads]))
      (slide_spec h1 h2).2.2 (slide_spec h3 h4).2.2).1⟩

theorem Calls.globals {m m' : Mem} {cs : List Call} (h : Calls m cs m') (g : Globals m) : Globals m' := by
  induction h with
  | nil => exact g
  | cons h _ ih =>
    obtain ⟨w, -, hw, ho⟩ := Call.only g h
    exact ih (g.only ho hw)

/-- A state of the memory in which the constants and tables of the package are as in `const.go`. -/
structure TablesIntact (m : Mem) : Prop where
  own : firstFree ≤ m.next
  zero : m.fe zeroL = List.replicate 10 0
  d : m.fe dL = Ed.d
  d2 : m.fe d2L = Ed.d2
  sqrtM1 : m.fe sqrtM1L = Ed.SqrtM1
  base : ∀ (i j : Nat) (r : List PreComp) (e : PreComp), Ed.base[i]? = some r → r[j]? = some e → m.pre (baseO i j) = e
  bi : ∀ (j : Nat) (e : PreComp), Ed.bi[j]? = some e → m.pre (biO j) = e

theorem tablesIntact_iff (m : Mem) : TablesIntact m ↔ Globals m := by
  constructor
  · rintro ⟨a, b, c, d, e, f, g⟩
    refine ⟨a, b, c, d, e, fun pos i hp hi => ?_, fun j hj => ?_⟩
    · obtain ⟨r, hr, hl⟩ := base_row hp
      obtain ⟨x, hx⟩ : ∃ x, r[i]? = some x := ⟨r[i], List.getElem?_eq_getElem (by omega)⟩
      rw [f pos i r x hr hx]
      unfold baseAt
      simp [List.getD_eq_getElem?_getD, hr, hx]
    · have hl : Ed.bi.length = 8 := C42_bi.1
      obtain ⟨x, hx⟩ : ∃ x, Ed.bi[j]? = some x := ⟨Ed.bi[j], List.getElem?_eq_getElem (by omega)⟩
      rw [g j x hx]
      simp [List.getD_eq_getElem?_getD, hx]
  · rintro ⟨a, b, c, d, e, f, g⟩
    refine ⟨a, b, c, d, e, fun i j r x hr hx => ?_, fun j x hx => ?_⟩
    · have hi : i < 32 := by
        have := (List.getElem?_eq_some_iff.1 hr).1
        rw [C42_base.1] at this; exact this
      have hj : j < 8 := by
        have := (List.getElem?_eq_some_iff.1 hx).1
        rw [C42_base.2.1 r (List.mem_of_getElem? hr)] at this; exact this
      rw [f i j hi hj]
      unfold baseAt
      simp [List.getD_eq_getElem?_getD, hr, hx]
    · have hj : j < 8 := by
        have := (List.getElem?_eq_some_iff.1 hx).1
        rw [C42_bi.1] at this; exact this
      rw [g j hj]
      simp [List.getD_eq_getElem?_getD, hx]

theorem fe_start {o f : Nat} {x : FE} (hx : x.length = 10) (h : ∀ i, start.cell o f i = lget x i) : start.fe (o, f) = x := by
  refine List.ext_getElem (by simp [Mem.fe, hx]) fun i h1 h2 => ?_
  simp only [Mem.fe, List.getElem_map, List.getElem_range, h]
  simp [lget, List.getD_eq_getElem?_getD, h2]

theorem pre_start {o : Nat} {e : PreComp} {A : Pt} (he : PreCompRep e A) (h : ∀ f i, start.cell o f i = lget (entryField e f) i) : start.pre o = e := by
  obtain ⟨p, q, r⟩ := e
  have h0 := fe_start (x := p) (he.bp.length) (fun i => h 0 i)
  have h1 := fe_start (x := q) (he.bm.length) (fun i => h 1 i)
  have h2 := fe_start (x := r) (he.bt.length) (fun i => h 2 i)
  unfold Mem.pre
  rw [h0, h1, h2]

/-- **C104** (the tables at the start are those of `const.go`). -/
theorem C104_start : TablesIntact start := by
  rw [tablesIntact_iff]
  refine ⟨Nat.le_refl _, ?_, ?_, ?_, ?_, fun pos i hp hi => ?_, fun j hj => ?_⟩
  · exact fe_start (by decide) fun i => by
      simp only [start, lget, if_pos, List.getD_nil]
      rcases Nat.lt_or_ge i 10 with h | h
      · interval_cases i <;> rfl
      · simp [Ed.FeZero, List.getD_eq_getElem?_getD, h]
  · exact fe_start (by decide) fun i => rfl
  · exact fe_start (by decide) fun i => rfl
  · exact fe_start (by decide) fun i => rfl
  · refine pre_start (baseAt_rep hp hi) fun f k => ?_
    simp only [start, baseO]
    rw [if_neg (by omega), if_neg (by omega), if_neg (by omega), if_neg (by omega), if_pos (by omega),
      show (4 + 8 * pos + i - 4) / 8 = pos by omega, show (4 + 8 * pos + i - 4) % 8 = i by omega]
  · have hl : Ed.bi.length = 8 := C42_bi.1
    have he : Ed.bi[j]? = some (Ed.bi.getD j PreComp.Zero) := by
      rw [List.getD_eq_getElem?_getD, List.getElem?_eq_getElem (by omega)]; rfl
    refine pre_start (bi_rep he) fun f k => ?_
    simp only [start, biO]
    rw [if_neg (by omega), if_neg (by omega), if_neg (by omega), if_neg (by omega), if_neg (by omega), if_pos (by omega),
      show 260 + j - 260 = j by omega]

/-- **C104** (tables). No sequence of calls changes the constants and tables of the package. -/
theorem C104_tables (m m' : Mem) (cs : List Call) (h : Calls m cs m') (hm : TablesIntact m) : TablesIntact m' :=
  (tablesIntact_iff m').2 (h.globals ((tablesIntact_iff m).1 hm))

/-- **C104** (variables of the program). A variable keeps its value over all calls that do not write it. -/
theorem C104_untouched (m m' : Mem) (cs : List Call) (h : Calls m cs m') (hm : TablesIntact m) (o : Nat) (ho : o < m.next)
    (hn : ∀ c ∈ cs, c.writes ≠ some o) (f : Nat) : m'.fe (o, f) = m.fe (o, f) := by
  rw [tablesIntact_iff] at hm
  induction h with
  | nil => rfl
  | @cons m1 m2 c cs h t ih =>
    obtain ⟨w, e, hw, h1⟩ := Call.only hm h
    rw [ih (hm.only h1 hw) (Nat.lt_of_lt_of_le ho h1.1) (fun c hc => hn c (List.mem_cons_of_mem _ hc))]
    by_cases hwo : o = w
    · rcases e with e | e
      · cases c <;> simp only [Call.writes, reduceCtorEq] at e
        exact (toBytes_spec (h.known _ (by simp [Call.reads])) (o + 1)).1.2 o f ho (by omega)
      · exact absurd (by rw [e, hwo]) (hn c (List.mem_cons_self ..))
    · exact h1.2 o f ho hwo

/-- **C104** (multiplication of the base point after any calls, into any variable). -/
theorem C104_scalar_mult (m m' : Mem) (cs : List Call) (hc : Calls m cs m') (hm : TablesIntact m) (h : Nat) (h1 : firstFree ≤ h) (h2 : h < m'.next) (a : Bytes)
    (ha : a.length = 32) (hl : leNat a < 2 ^ 255) :
    let m'' := Ptr.GeScalarMultBase h a m'
    IsExt (m''.ext h) (leNat a • B) ∧ OnlyChanges h m' m'' ∧ Encodes (Ptr.toBytes h m'').1 (leNat a • B) := by
  have g := hc.globals ((tablesIntact_iff m).1 hm)
  obtain ⟨a1, a2⟩ := GeScalarMultBase_spec (a := a) g h1 h2
  have a3 : IsExt ((Ptr.GeScalarMultBase h a m').ext h) (leNat a • B) := by rw [a2]; exact (isExt_iff _ _).2 (GeScalarMultBase_rep ha hl)
  refine ⟨a3, a1, ?_⟩
  obtain ⟨-, b2⟩ := toBytes_spec (m := Ptr.GeScalarMultBase h a m') (p := h) (Nat.lt_of_lt_of_le h2 a1.1) 0
  rw [b2]
  rw [isExt_iff] at a3
  exact (encodes_iff _ _).2 (Proj.toBytes_eq (p := (Ptr.GeScalarMultBase h a m').proj h) a3.toProjective)

/-- **C104** (double scalar multiplication after any calls). -/
theorem C104_double_scalar_mult (m m' : Mem) (cs : List Call) (hc : Calls m cs m') (hm : TablesIntact m) (r p : Nat) (h1 : firstFree ≤ r) (h2 : r < m'.next)
    (h3 : p < m'.next) (a b : Bytes) (A : Pt) (ha : a.length = 32) (hal : leNat a < 2 ^ 255) (hb : b.length = 32) (hbl : leNat b < 2 ^ 255)
    (hp : IsExt (m'.ext p) A) :
    let m'' := Ptr.GeDoubleScalarMultVartime r a p b m'
    IsProj (m''.proj r) (leNat a • A + leNat b • B) ∧ OnlyChanges r m' m'' := by
  have g := hc.globals ((tablesIntact_iff m).1 hm)
  obtain ⟨a1, a2⟩ := GeDoubleScalarMultVartime_spec g h1 h2 h3 (slide_spec ha hal).2.2 (slide_spec hb hbl).2.2
  refine ⟨?_, a1⟩
  show IsProj ((Ptr.GeDoubleScalarMultVartime r a p b m').proj r) _
  rw [a2]
  exact (C52_double_scalar_mult a b _ A ha hb hal hbl hp).1

/-- **C104** (decoding). The result of `FromBytes` is written to its receiver; whether it succeeds depends on the bytes only. -/
theorem C104_from_bytes (m m' : Mem) (cs : List Call) (hc : Calls m cs m') (hm : TablesIntact m) (p : Nat) (h1 : firstFree ≤ p) (h2 : p < m'.next) (s : Bytes)
    (hs : s.length = 32) :
    OnlyChanges p m' (Ptr.fromBytes p s m').2 ∧
    ((Ptr.fromBytes p s m').1 = true ↔ ∃ A : Pt, A.y = ((leNat s % 2 ^ 255 : Nat) : F)) ∧
    ((Ptr.fromBytes p s m').1 = true → ∃ A : Pt, IsExt ((Ptr.fromBytes p s m').2.ext p) A ∧ A.y = ((leNat s % 2 ^ 255 : Nat) : F) ∧
      (A.x ≠ 0 → A.x.val % 2 = leNat s / 2 ^ 255)) := by
  have g := hc.globals ((tablesIntact_iff m).1 hm)
  obtain ⟨a1, a2⟩ := Ptr.fromBytes_spec (s := s) g h1 h2
  refine ⟨a1, ?_, ?_⟩
  · rw [← C51_accepts s hs]
    cases e : Ext.FromBytes s with
    | some q => rw [e] at a2; simp [a2.1]
    | none => rw [e] at a2; simp [a2]
  · intro ht
    cases e : Ext.FromBytes s with
    | some q => rw [e] at a2; rw [a2.2]; exact C51_result s hs q e
    | none => rw [e] at a2; rw [a2] at ht; simp at ht

/-! ### Keys and signatures -/

/-- What a program asks of the key functions. -/
inductive Request
  | pub (key : Bytes)
  | sign (key message : Bytes)

/-- The answers to requests made one after the other in one process, and the memory afterwards. -/
def serve (H : Hashes) : List Request → Mem → List (Res Bytes) × Mem
  | [], m => ([], m)
  | q :: qs, m =>
    let r := match q with
      | .pub key => Bip32.Ptr.MakePublicKey key m
      | .sign key message => Bip32.Ptr.Sign H key message m
    let rest := serve H qs r.2
    (r.1 :: rest.1, rest.2)

theorem basePoint_spec {m : Mem} (g : Globals m) (key : Bytes) :
    (Bip32.Ptr.basePoint key m).1 = (Ed.GeScalarMultBase key).ToBytes ∧ Only m (Bip32.Ptr.basePoint key m).2 m.next := by
  obtain ⟨m1, e1, o1, n1, -⟩ := new_spec m m.next
  have hf := g.free
  unfold Bip32.Ptr.basePoint
  rw [e1]
  dsimp only
  have g1 := g.only o1 hf
  obtain ⟨a1, a2⟩ := GeScalarMultBase_spec (m := m1) (h := m.next) (a := key) g1 hf (by omega)
  have h0 := a1.1
  obtain ⟨b1, b2⟩ := toBytes_spec (m := Ptr.GeScalarMultBase m.next key m1) (p := m.next) (by omega) m.next
  refine ⟨?_, (o1.trans a1 (.inl rfl)).trans b1 (.inl rfl)⟩
  rw [b2, ← a2]
  unfold Ext.ToBytes Proj.ToBytes
  rfl

theorem MakePublicKey_ptr {m : Mem} (g : Globals m) (key : Bytes) :
    (Bip32.Ptr.MakePublicKey key m).1 = MakePublicKey key ∧ Only m (Bip32.Ptr.MakePublicKey key m).2 m.next := by
  unfold Bip32.Ptr.MakePublicKey MakePublicKey makePublicKey
  split
  · exact ⟨rfl, .refl _ _⟩
  · obtain ⟨a, b⟩ := basePoint_spec g (key.take 32)
    exact ⟨congrArg Res.ok a, b⟩

theorem Sign_ptr {m : Mem} (g : Globals m) (H : Hashes) (key message : Bytes) :
    (Bip32.Ptr.Sign H key message m).1 = Sign H key message ∧ Only m (Bip32.Ptr.Sign H key message m).2 m.next := by
  unfold Bip32.Ptr.Sign Sign makePublicKey
  by_cases h1 : key.length < 32
  · rw [if_pos h1, if_pos (by omega)]; exact ⟨rfl, .refl _ _⟩
  · rw [if_neg h1]
    obtain ⟨a, b⟩ := basePoint_spec g (key.take 32)
    dsimp only
    by_cases h2 : key.length < 64
    · rw [if_pos h2, if_pos h2]; exact ⟨rfl, b⟩
    · rw [if_neg h2, if_neg h2]
      obtain ⟨c, d⟩ := basePoint_spec (g.only b g.free) (ScReduce (H.sha512 ((key.drop 32).take 32 ++ message)))
      rw [c, a]
      exact ⟨rfl, b.trans d (.inr b.1)⟩

/-- **C104** (keys and signatures are independent of what was done before). In whatever order and number public keys and signatures are
requested in one process, each answer is that of the same request made alone; the tables and all variables of the program stay as they are. -/
theorem C104_requests (H : Hashes) (qs : List Request) (m : Mem) (hm : TablesIntact m) :
    (serve H qs m).1 = qs.map (fun q => match q with | .pub key => MakePublicKey key | .sign key message => Sign H key message) ∧
      TablesIntact (serve H qs m).2 ∧ ∀ o f, o < m.next → (serve H qs m).2.fe (o, f) = m.fe (o, f) := by
  have key : (serve H qs m).1 = qs.map (fun q => match q with | .pub key => MakePublicKey key | .sign key message => Sign H key message) ∧
      Only m (serve H qs m).2 m.next := by
    rw [tablesIntact_iff] at hm
    induction qs generalizing m with
    | nil => exact ⟨rfl, .refl _ _⟩
    | cons q qs ih =>
      unfold serve
      cases q with
      | pub key =>
        obtain ⟨a, b⟩ := MakePublicKey_ptr hm key
        obtain ⟨c, d⟩ := ih _ (hm.only b hm.free)
        exact ⟨by rw [List.map_cons, ← c]; dsimp only; rw [a], b.trans d (.inr b.1)⟩
      | sign key message =>
        obtain ⟨a, b⟩ := Sign_ptr hm H key message
        obtain ⟨c, d⟩ := ih _ (hm.only b hm.free)
        exact ⟨by rw [List.map_cons, ← c]; dsimp only; rw [a], b.trans d (.inr b.1)⟩
  exact ⟨key.1, (tablesIntact_iff _).2 (((tablesIntact_iff _).1 hm).only key.2 hm.own), fun o f ho => key.2.2 o f ho (Nat.ne_of_lt ho)⟩

/-- **C104** (every signature of a process is valid). -/
theorem C104_signatures (H : Hashes) (hH : H.Ok) (qs : List Request) (m : Mem) (hm : TablesIntact m) (i : Nat) (key message : Bytes)
    (hi : qs[i]? = some (.sign key message)) (hk : key.length = 96) (hs : leNat (key.take 32) < 2 ^ 255) :
    ∃ sig pk, (serve H qs m).1[i]? = some (.ok sig) ∧ Encodes pk (leNat (key.take 32) • B) ∧ Valid H.sha512 pk message sig := by
  obtain ⟨sig, pk, h1, h2, h3⟩ := C37_signature_valid H hH key hk hs message
  refine ⟨sig, pk, ?_, ?_, h3⟩
  · rw [(C104_requests H qs m hm).1, List.getElem?_map, hi]
    simp [h1]
  · unfold MakePublicKey at h2
    rw [if_neg (by omega)] at h2
    injection h2 with h2
    rw [← h2]
    exact makePublicKey_enc key (by omega) hs

/-! ### Cases -/

/-- The hypotheses are met: a program declares two variables, sets one to zero, decodes bytes into it and doubles it into the other. -/
def twoVariables : Mem := start.new.2.new.2

theorem twoVariables_fresh : TablesIntact twoVariables := by
  obtain ⟨m1, e1, o1, n1, -⟩ := new_spec start start.next
  obtain ⟨m2, e2, o2, n2, -⟩ := new_spec m1 start.next
  have e : twoVariables = m2 := by unfold twoVariables; rw [e1]; dsimp only; rw [e2]
  rw [e, tablesIntact_iff]
  have hf : firstFree ≤ start.next := C104_start.own
  exact (((tablesIntact_iff _).1 C104_start).only o1 hf).only o2 hf

theorem twoVariables_next : twoVariables.next = 270 := rfl

/-- `FeMul(&a, &a, &a)`, then base point multiplication into the variable containing `a`. -/
example (s : Bytes) : ∃ m', Calls twoVariables [.extZero 268, .feAdd (268, 1) (268, 1) (268, 1), .feMul (268, 1) (268, 1) (268, 1), .fromBytes 268 s, .extDouble 268 269] m' := by
  have hs : ∀ {m : Mem} {c : Call}, c.Ok m → Globals m → Globals (c.run m) ∧ m.next ≤ (c.run m).next := fun h g => by
    obtain ⟨w, -, hw, ho⟩ := Call.only g h
    exact ⟨g.only ho hw, ho.1⟩
  have g := (tablesIntact_iff _).1 twoVariables_fresh
  have n0 : 270 ≤ twoVariables.next := by rw [twoVariables_next]
  have ok1 : ∀ m : Mem, 270 ≤ m.next → (Call.extZero 268).Ok m := fun m h => ⟨by intro w hw; injection hw with hw; unfold firstFree; omega, by simp [Call.reads], trivial, trivial⟩
  have ok2 : ∀ m : Mem, 270 ≤ m.next → (Call.feAdd (268, 1) (268, 1) (268, 1)).Ok m := fun m h =>
    ⟨by intro w hw; injection hw with hw; unfold firstFree; dsimp only at hw; omega, by simp [Call.reads]; omega, trivial, trivial⟩
  have ok3 : ∀ m : Mem, 270 ≤ m.next → (Call.feMul (268, 1) (268, 1) (268, 1)).Ok m := fun m h =>
    ⟨by intro w hw; injection hw with hw; unfold firstFree; dsimp only at hw; omega, by simp [Call.reads]; omega, trivial, trivial⟩
  have ok4 : ∀ m : Mem, 270 ≤ m.next → (Call.fromBytes 268 s).Ok m := fun m h =>
    ⟨by intro w hw; injection hw with hw; unfold firstFree; omega, by simp [Call.reads], trivial, trivial⟩
  have ok5 : ∀ m : Mem, 270 ≤ m.next → (Call.extDouble 268 269).Ok m := fun m h =>
    ⟨by intro w hw; injection hw with hw; unfold firstFree; omega, by simp [Call.reads]; omega, by show (268 : Nat) ≠ 269; decide, trivial⟩
  obtain ⟨g1, n1⟩ := hs (ok1 _ n0) g
  have n1 := Nat.le_trans n0 n1
  obtain ⟨g2, n2⟩ := hs (ok2 _ n1) g1
  have n2 := Nat.le_trans n1 n2
  obtain ⟨g3, n3⟩ := hs (ok3 _ n2) g2
  have n3 := Nat.le_trans n2 n3
  obtain ⟨g4, n4⟩ := hs (ok4 _ n3) g3
  have n4 := Nat.le_trans n3 n4
  exact ⟨_, .cons (ok1 _ n0) (.cons (ok2 _ n1) (.cons (ok3 _ n2) (.cons (ok4 _ n3) (.cons (ok5 _ n4) (.nil _)))))⟩

/-- Three requests with one key: both signatures are valid. -/
example (H : Hashes) (hH : H.Ok) (message message' : Bytes) : ∃ sig sig' pk,
    (serve H [.pub (List.replicate 96 7), .sign (List.replicate 96 7) message, .sign (List.replicate 96 7) message'] start).1 = [.ok pk, .ok sig, .ok sig'] ∧
      Valid H.sha512 pk message sig ∧ Valid H.sha512 pk message' sig' := by
  have hs : leNat ((List.replicate 96 (7 : UInt8)).take 32) < 2 ^ 255 := by decide +kernel
  obtain ⟨sig, pk, h1, h2, h3⟩ := C37_signature_valid H hH (List.replicate 96 7) rfl hs message
  obtain ⟨sig', pk', h1', h2', h3'⟩ := C37_signature_valid H hH (List.replicate 96 7) rfl hs message'
  rw [h2] at h2'
  injection h2' with e
  refine ⟨sig, sig', pk, ?_, h3, by rw [e]; exact h3'⟩
  rw [(C104_requests H _ start C104_start).1]
  simp only [List.map_cons, List.map_nil, h1, h1', h2]

end Cardano.Props
