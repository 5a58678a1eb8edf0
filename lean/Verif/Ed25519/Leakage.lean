import Verif.Ed25519.Programs
/-!
# Which accesses to memory a program makes

The sequence of the accesses of a program run alone: which limb of which variable is read or written, which variables are declared, in order, without the
values. Two programs are the `Same` if this sequence cannot differ, whatever is in the memory, and they write only variables that satisfy `P`. For the
functions of `Programs.lean` that are used on secret numbers, calls with different numbers are the same in this sense.
-/
set_option autoImplicit false

namespace Cardano.Ed.Ptr

/-- An access: limb `i` of field `f` of object `o` is read or written, or `n` objects are declared. -/
inductive Access
  | read (o f i : Nat)
  | write (o f i : Nat)
  | new (n : Nat)
  deriving DecidableEq

namespace Prog
variable {α β γ δ : Type}

/-- The accesses of the program run alone, in order. -/
def trace : Prog α → Mem → List Access
  | ret _, _ => []
  | read o f i k, m => .read o f i :: (k (m.cell o f i)).trace m
  | write o f i v k, m => .write o f i :: k.trace (m.wr (o, f) i v)
  | new n k, m => .new n :: (k m.next).trace (m.news n)

/-- The accesses are the same whatever the memory holds, and only objects that satisfy `P` are written. -/
inductive Same (P : Nat → Prop) : Prog α → Prog β → Prop
  | ret (a : α) (b : β) : Same P (.ret a) (.ret b)
  | read (o f i : Nat) {k : Int → Prog α} {k' : Int → Prog β} (h : ∀ v w, Same P (k v) (k' w)) : Same P (.read o f i k) (.read o f i k')
  | write (o f i : Nat) (v w : Int) {k : Prog α} {k' : Prog β} (ho : P o) (h : Same P k k') : Same P (.write o f i v k) (.write o f i w k')
  | new (n : Nat) {k : Nat → Prog α} {k' : Nat → Prog β} (h : ∀ o, (∀ j < n, P (o + j)) → Same P (k o) (k' o)) : Same P (.new n k) (.new n k')

variable {P : Nat → Prop}

/-- What is said of two programs that are the same. `P` holds of every object yet to be declared. -/
theorem Same.trace {p : Prog α} {q : Prog β} (h : Same P p q) : ∀ (m m' : Mem), m.next = m'.next → (∀ o, m.next ≤ o → P o) → p.trace m = q.trace m' := by
  induction h with
  | ret a b => intros; rfl
  | read o f i h ih => intro m m' hn hp; exact congrArg _ (ih _ _ _ _ hn hp)
  | write o f i v w ho h ih => intro m m' hn hp; exact congrArg (Access.write o f i :: ·) (ih (m.wr (o, f) i v) (m'.wr (o, f) i w) hn hp)
  | new n h ih =>
    intro m m' hn hp
    show Access.new n :: _ = Access.new n :: _
    rw [← hn]
    exact congrArg _ (ih _ (fun j _ => hp _ (Nat.le_add_right _ _)) _ _ (by show m.next + n = m'.next + n; rw [hn]) fun o ho => hp o (Nat.le_trans (Nat.le_add_right _ _) ho))

/-- Objects that do not satisfy `P` keep what they hold. -/
theorem Same.keeps {p : Prog α} {q : Prog β} (h : Same P p q) : ∀ (m : Mem), (∀ o, m.next ≤ o → P o) →
    m.next ≤ (p.run m).2.next ∧ ∀ o f i, ¬ P o → (p.run m).2.cell o f i = m.cell o f i := by
  induction h with
  | ret a b => intro m _; exact ⟨Nat.le_refl _, fun _ _ _ _ => rfl⟩
  | read o f i h ih => intro m hp; exact ih _ 0 m hp
  | write o f i v w ho h ih =>
    intro m hp
    obtain ⟨h1, h2⟩ := ih (m.wr (o, f) i v) hp
    refine ⟨h1, fun o' f' i' hn => (h2 o' f' i' hn).trans ?_⟩
    exact if_neg fun hc : o' = o ∧ f' = f ∧ i' = i => hn (hc.1 ▸ ho)
  | new n h ih =>
    intro m hp
    obtain ⟨h1, h2⟩ := ih m.next (fun j _ => hp _ (Nat.le_add_right _ _)) (m.news n) fun o ho => hp o (Nat.le_trans (Nat.le_add_right _ _) ho)
    refine ⟨Nat.le_trans (Nat.le_add_right _ _) h1, fun o' f' i' hn => (h2 o' f' i' hn).trans ?_⟩
    exact if_neg fun hc : m.next ≤ o' ∧ o' < m.next + n => hn (hp o' hc.1)

theorem trace_bind (p : Prog α) (g : α → Prog β) (m : Mem) : (p >>= g).trace m = p.trace m ++ (g (p.run m).1).trace (p.run m).2 := by
  show (p.bind g).trace m = _
  induction p generalizing m with
  | ret a => rfl
  | read o f i k ih => exact congrArg _ (ih _ _)
  | write o f i v k ih => exact congrArg _ (ih _)
  | new n k ih => exact congrArg _ (ih _ _)

instance : LawfulMonad Prog := LawfulMonad.mk'
  (id_map := fun {α} (p : Prog α) => by
    show p.bind (fun a => ret (id a)) = p
    induction p with
    | ret a => rfl
    | read o f i k ih => exact congrArg (read o f i) (funext ih)
    | write o f i v k ih => exact congrArg (write o f i v) ih
    | new n k ih => exact congrArg (new n) (funext ih))
  (pure_bind := fun _ _ => rfl)
  (bind_assoc := fun {α β γ} (p : Prog α) (g : α → Prog β) (h : β → Prog γ) => by
    show (p.bind g).bind h = p.bind fun a => (g a).bind h
    induction p with
    | ret a => rfl
    | read o f i k ih => exact congrArg (read o f i) (funext ih)
    | write o f i v k ih => exact congrArg (write o f i v) ih
    | new n k ih => exact congrArg (new n) (funext ih))

theorem same_pure (a : α) (b : β) : Same P (pure a : Prog α) (pure b : Prog β) := .ret a b

theorem same_bind {p : Prog α} {q : Prog β} {g : α → Prog γ} {g' : β → Prog δ} (hp : Same P p q) (hg : ∀ a b, Same P (g a) (g' b)) :
    Same P (p >>= g) (q >>= g') := by
  show Same P (p.bind g) (q.bind g')
  induction hp with
  | ret a b => exact hg a b
  | read o f i h ih => exact .read o f i fun v w => ih v w
  | write o f i v w ho h ih => exact .write o f i v w ho ih
  | new n h ih => exact .new n fun o ho => ih o ho

theorem same_each {body : γ → Prog Unit} {body' : γ → Prog Unit} {l : List γ} (h : ∀ x ∈ l, Same P (body x) (body' x)) : Same P (each body l) (each body' l) := by
  induction l with
  | nil => exact same_pure _ _
  | cons x l ih => exact same_bind (h x List.mem_cons_self) fun _ _ => ih fun y hy => h y (List.mem_cons_of_mem _ hy)

end Prog

namespace P
open Prog
variable {P : Nat → Prop}

theorem same_rd (p : Loc) (i : Nat) : Same P (rd p i) (rd p i) := .read _ _ _ fun _ _ => .ret _ _

theorem same_wr {p : Loc} (h : P p.1) (i : Nat) (v w : Int) : Same P (wr p i v) (wr p i w) := .write _ _ _ _ _ h (.ret _ _)

theorem same_rdList (p : Loc) (l : List Nat) : Same P (rdList p l) (rdList p l) := by
  induction l with
  | nil => exact same_pure _ _
  | cons i l ih => exact same_bind (same_rd p i) fun _ _ => same_bind ih fun _ _ => same_pure _ _

theorem same_rdFe (p : Loc) : Same P (rdFe p) (rdFe p) := same_rdList p _

theorem same_wrFe {p : Loc} (h : P p.1) (v w : Limbs) : Same P (wrFe p v) (wrFe p w) := same_each fun _ _ => same_wr h _ _ _

theorem same_decl {β γ : Type} {g : Nat → Prog β} {g' : Nat → Prog γ} (h : ∀ o, P o → Same P (g o) (g' o)) : Same P (decl >>= g) (decl >>= g') :=
  .new 1 fun o ho => h o (ho 0 Nat.one_pos)

theorem same_limbwise {g g' : Int → Int → Int} {dst a b : Loc} (h : P dst.1) : Same P (limbwise g dst a b) (limbwise g' dst a b) :=
  same_each fun i _ => same_bind (same_rd a i) fun _ _ => same_bind (same_rd b i) fun _ _ => same_wr h _ _ _

theorem same_FeCopy {dst src : Loc} (h : P dst.1) : Same P (FeCopy dst src) (FeCopy dst src) := same_limbwise h

theorem same_FeZero {p : Loc} (h : P p.1) : Same P (FeZero p) (FeZero p) := same_FeCopy h

theorem same_FeOne {p : Loc} (h : P p.1) : Same P (FeOne p) (FeOne p) := same_bind (same_FeZero h) fun _ _ => same_wr h _ _ _

theorem same_FeAdd {dst a b : Loc} (h : P dst.1) : Same P (FeAdd dst a b) (FeAdd dst a b) := same_limbwise h

theorem same_FeSub {dst a b : Loc} (h : P dst.1) : Same P (FeSub dst a b) (FeSub dst a b) := same_limbwise h

theorem same_FeNeg {dst f : Loc} (h : P dst.1) : Same P (FeNeg dst f) (FeNeg dst f) := same_limbwise h

theorem same_FeCMove {f g : Loc} {b b' : Int} (h : P f.1) : Same P (FeCMove f g b) (FeCMove f g b') := same_limbwise h

theorem same_FeCombine {p : Loc} {l l' : Limbs} (h : P p.1) : Same P (FeCombine p l) (FeCombine p l') := same_wrFe h _ _

theorem same_FeToBytes {p : Loc} (h : P p.1) : Same P (FeToBytes p) (FeToBytes p) := same_bind (same_rdFe p) fun _ _ => same_bind (same_wrFe h _ _) fun _ _ => same_pure _ _

theorem same_FeIsNegative {p : Loc} (h : P p.1) : Same P (FeIsNegative p) (FeIsNegative p) := same_bind (same_FeToBytes h) fun _ _ => same_pure _ _

theorem same_FeMul {p f g : Loc} (h : P p.1) : Same P (FeMul p f g) (FeMul p f g) := same_bind (same_rdFe f) fun _ _ => same_bind (same_rdFe g) fun _ _ => same_FeCombine h

theorem same_FeSquare {p f : Loc} (h : P p.1) : Same P (FeSquare p f) (FeSquare p f) := same_bind (same_rdFe f) fun _ _ => same_FeCombine h

theorem same_FeSquare2 {p f : Loc} (h : P p.1) : Same P (FeSquare2 p f) (FeSquare2 p f) := same_bind (same_rdFe f) fun _ _ => same_FeCombine h

theorem same_times {p : Prog Unit} (h : Same P p p) (n : Nat) : Same P (times p n) (times p n) := by
  induction n with
  | zero => exact same_pure _ _
  | succ n ih => exact same_bind ih fun _ _ => h

theorem same_sqLoop {n : Nat} {t : Loc} (h : P t.1) : Same P (sqLoop n t) (sqLoop n t) := same_times (same_FeSquare h) _

theorem same_FeInvert {out z : Loc} (hout : P out.1) : Same P (FeInvert out z) (FeInvert out z) := by
  unfold FeInvert
  exact
    same_decl fun t0 ht0 => same_decl fun t1 ht1 => same_decl fun t2 ht2 => same_decl fun t3 ht3 => same_bind (same_FeSquare ht0) fun _ _ =>
      same_bind (same_FeSquare ht1) fun _ _ => same_bind (same_sqLoop ht1) fun _ _ => same_bind (same_FeMul ht1) fun _ _ =>
      same_bind (same_FeMul ht0) fun _ _ => same_bind (same_FeSquare ht2) fun _ _ => same_bind (same_FeMul ht1) fun _ _ =>
      same_bind (same_FeSquare ht2) fun _ _ => same_bind (same_sqLoop ht2) fun _ _ => same_bind (same_FeMul ht1) fun _ _ =>
      same_bind (same_FeSquare ht2) fun _ _ => same_bind (same_sqLoop ht2) fun _ _ => same_bind (same_FeMul ht2) fun _ _ =>
      same_bind (same_FeSquare ht3) fun _ _ => same_bind (same_sqLoop ht3) fun _ _ => same_bind (same_FeMul ht2) fun _ _ =>
      same_bind (same_FeSquare ht2) fun _ _ => same_bind (same_sqLoop ht2) fun _ _ => same_bind (same_FeMul ht1) fun _ _ =>
      same_bind (same_FeSquare ht2) fun _ _ => same_bind (same_sqLoop ht2) fun _ _ => same_bind (same_FeMul ht2) fun _ _ =>
      same_bind (same_FeSquare ht3) fun _ _ => same_bind (same_sqLoop ht3) fun _ _ => same_bind (same_FeMul ht2) fun _ _ =>
      same_bind (same_FeSquare ht2) fun _ _ => same_bind (same_sqLoop ht2) fun _ _ => same_bind (same_FeMul ht1) fun _ _ =>
      same_bind (same_FeSquare ht1) fun _ _ => same_bind (same_sqLoop ht1) fun _ _ => (same_FeMul hout)

theorem same_projDouble {p r : Nat} (hr : P r) : Same P (projDouble p r) (projDouble p r) := by
  unfold projDouble
  exact
    same_decl fun t0 ht0 => same_bind (same_FeSquare hr) fun _ _ => same_bind (same_FeSquare hr) fun _ _ => same_bind (same_FeSquare2 hr) fun _ _ =>
      same_bind (same_FeAdd hr) fun _ _ => same_bind (same_FeSquare ht0) fun _ _ => same_bind (same_FeAdd hr) fun _ _ => same_bind (same_FeSub hr) fun _ _ =>
      same_bind (same_FeSub hr) fun _ _ => (same_FeSub hr)

theorem same_extZero {p : Nat} (hp : P p) : Same P (extZero p) (extZero p) := by
  unfold extZero
  exact
    same_bind (same_FeZero hp) fun _ _ => same_bind (same_FeOne hp) fun _ _ => same_bind (same_FeOne hp) fun _ _ => (same_FeZero hp)

theorem same_extToProjective {p r : Nat} (hr : P r) : Same P (extToProjective p r) (extToProjective p r) := by
  unfold extToProjective
  exact
    same_bind (same_FeCopy hr) fun _ _ => same_bind (same_FeCopy hr) fun _ _ => (same_FeCopy hr)

theorem same_extDouble {p r : Nat} (hr : P r) : Same P (extDouble p r) (extDouble p r) := by
  unfold extDouble
  exact
    same_decl fun q hq => same_bind (same_extToProjective hq) fun _ _ => (same_projDouble hr)

theorem same_complToProjective {p r : Nat} (hr : P r) : Same P (complToProjective p r) (complToProjective p r) := by
  unfold complToProjective
  exact
    same_bind (same_FeMul hr) fun _ _ => same_bind (same_FeMul hr) fun _ _ => (same_FeMul hr)

theorem same_toExtended {p r : Nat} (hr : P r) : Same P (toExtended p r) (toExtended p r) := by
  unfold toExtended
  exact
    same_bind (same_FeMul hr) fun _ _ => same_bind (same_FeMul hr) fun _ _ => same_bind (same_FeMul hr) fun _ _ => (same_FeMul hr)

theorem same_preZero {p : Nat} (hp : P p) : Same P (preZero p) (preZero p) := by
  unfold preZero
  exact
    same_bind (same_FeOne hp) fun _ _ => same_bind (same_FeOne hp) fun _ _ => (same_FeZero hp)

theorem same_geMixedAdd {r p q : Nat} (hr : P r) : Same P (geMixedAdd r p q) (geMixedAdd r p q) := by
  unfold geMixedAdd
  exact
    same_decl fun t0 ht0 => same_bind (same_FeAdd hr) fun _ _ => same_bind (same_FeSub hr) fun _ _ => same_bind (same_FeMul hr) fun _ _ =>
      same_bind (same_FeMul hr) fun _ _ => same_bind (same_FeMul hr) fun _ _ => same_bind (same_FeAdd ht0) fun _ _ => same_bind (same_FeSub hr) fun _ _ =>
      same_bind (same_FeAdd hr) fun _ _ => same_bind (same_FeAdd hr) fun _ _ => (same_FeSub hr)

theorem same_preCMove {t u : Nat} {b b' : Int} (ht : P t) : Same P (preCMove t u b) (preCMove t u b') := by
  unfold preCMove
  exact same_bind (same_FeCMove ht) fun _ _ => same_bind (same_FeCMove ht) fun _ _ => same_FeCMove ht

/-- All eight entries of the row are read, whichever is taken. -/
theorem same_selectPoint {t pos : Nat} {b b' : Int} (h : P t) : Same P (selectPoint t pos b) (selectPoint t pos b') := by
  unfold selectPoint
  exact
    same_decl fun minusT hm => same_bind (same_preZero h) fun _ _ => same_bind (same_each fun _ _ => same_preCMove h) fun _ _ => same_bind (same_FeCopy hm) fun _ _ =>
      same_bind (same_FeCopy hm) fun _ _ => same_bind (same_FeNeg hm) fun _ _ => same_preCMove h

end P
end Cardano.Ed.Ptr
