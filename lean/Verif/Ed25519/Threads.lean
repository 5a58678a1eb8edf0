import Verif.Ed25519.Pointers
import Mathlib.Logic.Function.Basic
/-!
# Goroutines over the memory of `edwards25519`

A program is a sequence of single accesses to memory: reading a limb, writing a limb, declaring variables. Several goroutines run such
programs at the same time; each access is one step, and the steps of different goroutines are interleaved in any order. (By the memory model of
Go, a program without data races behaves like some such interleaving; that there are no races is part of what is proved.)
-/
set_option autoImplicit false

namespace Cardano.Ed.Ptr

/-- A program with a result: limb `i` of field `f` of object `o` is read or written, `n` new objects are declared (the number of the first is given on). -/
inductive Prog (α : Type) : Type
  | ret (a : α)
  | read (o f i : Nat) (k : Int → Prog α)
  | write (o f i : Nat) (v : Int) (k : Prog α)
  | new (n : Nat) (k : Nat → Prog α)

namespace Prog
variable {α β : Type}

/-- One program after the other. -/
def bind : Prog α → (α → Prog β) → Prog β
  | ret a, g => g a
  | read o f i k, g => read o f i fun v => (k v).bind g
  | write o f i v k, g => write o f i v (k.bind g)
  | new n k, g => new n fun o => (k o).bind g

instance : Monad Prog where
  pure := ret
  bind := bind

end Prog

/-- Declaration of `n` variables: new objects, zero. -/
def Mem.news (m : Mem) (n : Nat) : Mem :=
  { next := m.next + n, cell := fun o f j => if m.next ≤ o ∧ o < m.next + n then 0 else m.cell o f j }

namespace Prog
variable {α β : Type}

/-- The program run alone. -/
def run : Prog α → Mem → α × Mem
  | ret a, m => (a, m)
  | read o f i k, m => (k (m.cell o f i)).run m
  | write o f i v k, m => k.run (m.wr (o, f) i v)
  | new n k, m => (k m.next).run (m.news n)

/-- The number of steps of the program run alone. -/
def cost : Prog α → Mem → Nat
  | ret _, _ => 0
  | read o f i k, m => (k (m.cell o f i)).cost m + 1
  | write o f i v k, m => k.cost (m.wr (o, f) i v) + 1
  | new n k, m => (k m.next).cost (m.news n) + 1

/-- The program writes no variable of the package, whatever it reads and wherever its variables are. -/
def Safe : Prog α → Prop
  | ret _ => True
  | read _ _ _ k => ∀ v, (k v).Safe
  | write o _ _ _ k => firstFree ≤ o ∧ k.Safe
  | new _ k => ∀ o, firstFree ≤ o → (k o).Safe

theorem run_bind (p : Prog α) (g : α → Prog β) (m : Mem) : (p >>= g).run m = (g (p.run m).1).run (p.run m).2 := by
  show (p.bind g).run m = _
  induction p generalizing m with
  | ret a => rfl
  | read o f i k ih => exact ih _ _
  | write o f i v k ih => exact ih _
  | new n k ih => exact ih _ _

theorem run_pure (a : α) (m : Mem) : (pure a : Prog α).run m = (a, m) := rfl

theorem safe_bind {p : Prog α} {g : α → Prog β} (hp : p.Safe) (hg : ∀ a, (g a).Safe) : (p >>= g).Safe := by
  show (p.bind g).Safe
  induction p with
  | ret a => exact hg a
  | read o f i k ih => exact fun v => ih v (hp v)
  | write o f i v k ih => exact ⟨hp.1, ih hp.2⟩
  | new n k ih => exact fun o ho => ih o (hp o ho)

theorem safe_pure (a : α) : (pure a : Prog α).Safe := trivial

/-- `body` for every element of the list. -/
def each {γ : Type} (body : γ → Prog Unit) : List γ → Prog Unit
  | [] => pure ()
  | x :: l => do body x; each body l

theorem run_each {γ : Type} (body : γ → Prog Unit) (step : Mem → γ → Mem) (h : ∀ x m, (body x).run m = ((), step m x)) (l : List γ) (m : Mem) :
    (each body l).run m = ((), l.foldl step m) := by
  induction l generalizing m with
  | nil => rfl
  | cons x l ih => rw [each, run_bind, h]; exact ih _

theorem safe_each {γ : Type} {body : γ → Prog Unit} {l : List γ} (h : ∀ x ∈ l, (body x).Safe) : (each body l).Safe := by
  induction l with
  | nil => trivial
  | cons x l ih => exact safe_bind (h x List.mem_cons_self) fun _ => ih fun y hy => h y (List.mem_cons_of_mem _ hy)

end Prog

/-! ## Interleaving -/

/-- Goroutines `T`: the variables of the package, which all can reach; the variables of each goroutine; what each has still to do. A variable of a goroutine is named by
the number it has in that goroutine. -/
structure Pool (T α : Type) where
  shared : Nat → Nat → Nat → Int
  own : T → Mem
  prog : T → Prog α

variable {T α : Type} [DecidableEq T]

/-- The memory as a goroutine sees it. -/
def Pool.view (s : Pool T α) (t : T) : Mem :=
  { next := (s.own t).next, cell := fun o f i => if o < firstFree then s.shared o f i else (s.own t).cell o f i }

/-- One step of goroutine `t`. -/
def Pool.step (s : Pool T α) (t : T) : Pool T α :=
  match s.prog t with
  | .ret _ => s
  | .read o f i k => { s with prog := Function.update s.prog t (k (if o < firstFree then s.shared o f i else (s.own t).cell o f i)) }
  | .write o f i v k =>
    if o < firstFree then
      { s with shared := fun o' f' i' => if o' = o ∧ f' = f ∧ i' = i then v else s.shared o' f' i', prog := Function.update s.prog t k }
    else { s with own := Function.update s.own t ((s.own t).wr (o, f) i v), prog := Function.update s.prog t k }
  | .new n k => { s with own := Function.update s.own t ((s.own t).news n), prog := Function.update s.prog t (k (s.own t).next) }

/-- Steps in the order given. -/
def Pool.exec (s : Pool T α) (schedule : List T) : Pool T α := schedule.foldl Pool.step s

/-- Goroutine `t` is about to write a variable of the package. -/
def Pool.Races (s : Pool T α) (t : T) : Prop := ∃ o f i v k, s.prog t = .write o f i v k ∧ o < firstFree

/-- Programs that write no variable of the package, with variables of their own. -/
structure Pool.Good (s : Pool T α) : Prop where
  safe : ∀ t, (s.prog t).Safe
  free : ∀ t, firstFree ≤ (s.own t).next

/-- One step changes no goroutine's future, and the variables of the package are as before. -/
theorem Pool.step_spec (s : Pool T α) (h : s.Good) (t : T) :
    (s.step t).Good ∧ (s.step t).shared = s.shared ∧ (∀ t', ((s.step t).prog t').run ((s.step t).view t') = (s.prog t').run (s.view t')) ∧
      (∀ t', ((s.step t).prog t').cost ((s.step t).view t') = (s.prog t').cost (s.view t') - if t' = t then 1 else 0) := by
  have hs := h.safe t
  unfold Pool.step
  cases e : s.prog t with
  | ret a =>
    refine ⟨h, rfl, fun _ => rfl, fun t' => ?_⟩
    by_cases c : t' = t
    · rw [c]; simp only [e, Prog.cost]; simp
    · rw [if_neg c]; rfl
  | read o f i k =>
    rw [e] at hs
    refine ⟨⟨fun t' => ?_, h.free⟩, rfl, fun t' => ?_, fun t' => ?_⟩
    · by_cases c : t' = t
      · subst c; simp only [Function.update_self]; exact hs _
      · simp only [Function.update_of_ne c]; exact h.safe t'
    · by_cases c : t' = t
      · subst c; simp only [Function.update_self, e, Prog.run]; rfl
      · simp only [Function.update_of_ne c]; rfl
    · by_cases c : t' = t
      · subst c; simp only [Function.update_self, e, Prog.cost, if_true, Nat.add_sub_cancel]; rfl
      · simp only [Function.update_of_ne c, if_neg c, Nat.sub_zero]; rfl
  | write o f i v k =>
    rw [e] at hs
    have ho : ¬ o < firstFree := Nat.not_lt.2 hs.1
    simp only [if_neg ho]
    have hview : ({ s with own := Function.update s.own t ((s.own t).wr (o, f) i v), prog := Function.update s.prog t k } : Pool T α).view t = (s.view t).wr (o, f) i v := by
      unfold Pool.view Mem.wr
      simp only [Function.update_self, Mem.mk.injEq, true_and]
      funext o' f' i'
      by_cases c1 : o' < firstFree
      · rw [if_pos c1, if_neg (by rintro ⟨rfl, -⟩; exact ho c1), if_pos c1]
      · simp only [if_neg c1]
    have hother : ∀ t', t' ≠ t → ({ s with own := Function.update s.own t ((s.own t).wr (o, f) i v), prog := Function.update s.prog t k } : Pool T α).view t' = s.view t' := by
      intro t' c
      unfold Pool.view
      simp only [Function.update_of_ne c]
    refine ⟨⟨fun t' => ?_, fun t' => ?_⟩, trivial, fun t' => ?_, fun t' => ?_⟩
    · by_cases c : t' = t
      · subst c; simp only [Function.update_self]; exact hs.2
      · simp only [Function.update_of_ne c]; exact h.safe t'
    · by_cases c : t' = t
      · subst c; simp only [Function.update_self]; exact h.free _
      · simp only [Function.update_of_ne c]; exact h.free t'
    · by_cases c : t' = t
      · subst c; rw [hview]; simp only [Function.update_self, e, Prog.run]
      · rw [hother t' c]; simp only [Function.update_of_ne c]
    · by_cases c : t' = t
      · subst c; rw [hview]; simp only [Function.update_self, e, Prog.cost, if_true, Nat.add_sub_cancel]
      · rw [hother t' c]; simp only [Function.update_of_ne c, if_neg c, Nat.sub_zero]
  | new n k =>
    rw [e] at hs
    have hview : ({ s with own := Function.update s.own t ((s.own t).news n), prog := Function.update s.prog t (k (s.own t).next) } : Pool T α).view t = (s.view t).news n := by
      unfold Pool.view Mem.news
      simp only [Function.update_self, Mem.mk.injEq, true_and]
      funext o' f' i'
      have := h.free t
      by_cases c1 : o' < firstFree
      · rw [if_pos c1, if_neg (by omega), if_pos c1]
      · simp only [if_neg c1]
    have hother : ∀ t', t' ≠ t → ({ s with own := Function.update s.own t ((s.own t).news n), prog := Function.update s.prog t (k (s.own t).next) } : Pool T α).view t' = s.view t' := by
      intro t' c
      unfold Pool.view
      simp only [Function.update_of_ne c]
    refine ⟨⟨fun t' => ?_, fun t' => ?_⟩, rfl, fun t' => ?_, fun t' => ?_⟩
    · by_cases c : t' = t
      · subst c; simp only [Function.update_self]; exact hs _ (h.free _)
      · simp only [Function.update_of_ne c]; exact h.safe t'
    · by_cases c : t' = t
      · subst c; simp only [Function.update_self, Mem.news]; have := h.free t'; omega
      · simp only [Function.update_of_ne c]; exact h.free t'
    · by_cases c : t' = t
      · subst c; rw [hview]; simp only [Function.update_self, e, Prog.run]; rfl
      · rw [hother t' c]; simp only [Function.update_of_ne c]
    · by_cases c : t' = t
      · subst c; rw [hview]; simp only [Function.update_self, e, Prog.cost, if_true, Nat.add_sub_cancel]; rfl
      · rw [hother t' c]; simp only [Function.update_of_ne c, if_neg c, Nat.sub_zero]

theorem Pool.exec_spec (schedule : List T) (s : Pool T α) (h : s.Good) :
    (s.exec schedule).Good ∧ (s.exec schedule).shared = s.shared ∧
      (∀ t, ((s.exec schedule).prog t).run ((s.exec schedule).view t) = (s.prog t).run (s.view t)) ∧
      (∀ t, ((s.exec schedule).prog t).cost ((s.exec schedule).view t) = (s.prog t).cost (s.view t) - schedule.count t) := by
  induction schedule generalizing s with
  | nil => exact ⟨h, rfl, fun _ => rfl, fun _ => rfl⟩
  | cons x l ih =>
    obtain ⟨a1, a2, a3, a4⟩ := s.step_spec h x
    obtain ⟨b1, b2, b3, b4⟩ := ih (s.step x) a1
    refine ⟨b1, b2.trans a2, fun t => (b3 t).trans (a3 t), fun t => (b4 t).trans ?_⟩
    rw [a4, List.count_cons, Nat.sub_sub]
    congr 1
    by_cases c : t = x
    · subst c; simp [Nat.add_comm]
    · rw [if_neg c, if_neg (by simpa using fun h => c h.symm)]; omega

/-- No goroutine is ever about to write a variable of the package; so no two goroutines access one variable at the same time, one of them writing. -/
theorem Pool.no_race (schedule : List T) (s : Pool T α) (h : s.Good) (t : T) : ¬ (s.exec schedule).Races t := by
  rintro ⟨o, f, i, v, k, e, ho⟩
  have := (s.exec_spec schedule h).1.safe t
  rw [e] at this
  exact absurd this.1 (Nat.not_le.2 ho)

/-- When a goroutine is done, its result and its variables are those of its program run alone. -/
theorem Pool.done (schedule : List T) (s : Pool T α) (h : s.Good) (t : T) (a : α) (e : (s.exec schedule).prog t = .ret a) :
    a = ((s.prog t).run (s.view t)).1 ∧ (s.exec schedule).view t = ((s.prog t).run (s.view t)).2 := by
  have := (s.exec_spec schedule h).2.2.1 t
  rw [e] at this
  exact ⟨congrArg Prod.fst this, congrArg Prod.snd this⟩

/-- A goroutine that gets enough steps is done. -/
theorem Pool.ends (schedule : List T) (s : Pool T α) (h : s.Good) (t : T) (hc : (s.prog t).cost (s.view t) ≤ schedule.count t) :
    ∃ a, (s.exec schedule).prog t = .ret a := by
  have := (s.exec_spec schedule h).2.2.2 t
  rw [Nat.sub_eq_zero_of_le hc] at this
  cases e : (s.exec schedule).prog t with
  | ret a => exact ⟨a, rfl⟩
  | read o f i k => rw [e] at this; simp [Prog.cost] at this
  | write o f i v k => rw [e] at this; simp [Prog.cost] at this
  | new n k => rw [e] at this; simp [Prog.cost] at this

end Cardano.Ed.Ptr
