import Verif.Ed25519.Programs
import Verif.Props.InPlace
/-!
# Property C111: keys and signatures computed by several goroutines at the same time

Goroutines call the functions of the curve package on variables of their own, derive public keys and sign, all at the same time; their
single accesses to memory are interleaved in any order.
-/
set_option autoImplicit false

namespace Cardano.Props
open Ed Ed.Ptr Ed.Ptr.Prog Bip32

/-! ### What goroutines do -/

/-- A call of an exported function as a program of single accesses; its answer is dropped. -/
def Call.prog : Call → Prog Unit
  | feZero h => P.FeZero h
  | feOne h => P.FeOne h
  | feAdd h f g => P.FeAdd h f g
  | feSub h f g => P.FeSub h f g
  | feCopy h f => P.FeCopy h f
  | feCMove f g b => P.FeCMove f g b
  | feFromBytes h s => P.FeFromBytes h s
  | feToBytes f => do let _ ← P.FeToBytes f
  | feIsNegative f => do let _ ← P.FeIsNegative f
  | feIsNonZero f => do let _ ← P.FeIsNonZero f
  | feNeg h f => P.FeNeg h f
  | feMul h f g => P.FeMul h f g
  | feSquare h f => P.FeSquare h f
  | feSquare2 h f => P.FeSquare2 h f
  | feInvert h f => P.FeInvert h f
  | projZero p => P.projZero p
  | projDouble p r => P.projDouble p r
  | toBytes p => do let _ ← P.toBytes p
  | extZero p => P.extZero p
  | extDouble p r => P.extDouble p r
  | extToCached p r => P.toCached p r
  | extToProjective p r => P.extToProjective p r
  | fromBytes p s => do let _ ← P.fromBytes p s
  | complToProjective p r => P.complToProjective p r
  | complToExtended p r => P.toExtended p r
  | preZero p => P.preZero p
  | preCMove t u b => P.preCMove t u b
  | scalarMultBase h a => P.GeScalarMultBase h a
  | doubleScalarMult r a A b => P.GeDoubleScalarMultVartime r a A b

theorem Call.run_prog (c : Call) (m : Mem) : c.prog.run m = ((), c.run m) := by
  cases c with
  | feZero => exact P.run_FeZero ..
  | feOne => exact P.run_FeOne ..
  | feAdd => exact P.run_FeAdd ..
  | feSub => exact P.run_FeSub ..
  | feCopy => exact P.run_FeCopy ..
  | feCMove => exact P.run_FeCMove ..
  | feFromBytes => exact P.run_FeFromBytes ..
  | feToBytes => simp only [Call.prog, Call.run, run_bind, P.run_FeToBytes, run_pure]
  | feIsNegative => simp only [Call.prog, Call.run, run_bind, P.run_FeIsNegative, run_pure]
  | feIsNonZero => simp only [Call.prog, Call.run, run_bind, P.run_FeIsNonZero, run_pure]
  | feNeg => exact P.run_FeNeg ..
  | feMul => exact P.run_FeMul ..
  | feSquare => exact P.run_FeSquare ..
  | feSquare2 => exact P.run_FeSquare2 ..
  | feInvert => exact P.run_FeInvert ..
  | projZero => exact P.run_projZero ..
  | projDouble => exact P.run_projDouble ..
  | toBytes => simp only [Call.prog, Call.run, run_bind, P.run_toBytes, run_pure]
  | extZero => exact P.run_extZero ..
  | extDouble => exact P.run_extDouble ..
  | extToCached => exact P.run_toCached ..
  | extToProjective => exact P.run_extToProjective ..
  | fromBytes => simp only [Call.prog, Call.run, run_bind, P.run_fromBytes, run_pure]
  | complToProjective => exact P.run_complToProjective ..
  | complToExtended => exact P.run_toExtended ..
  | preZero => exact P.run_preZero ..
  | preCMove => exact P.run_preCMove ..
  | scalarMultBase => exact P.run_GeScalarMultBase ..
  | doubleScalarMult => exact P.run_GeDoubleScalarMultVartime ..

section
attribute [local irreducible] Prog.Safe Prog.bind

theorem Call.safe_prog {c : Call} (h : ∀ w, c.writes = some w → firstFree ≤ w) : c.prog.Safe := by
  cases c with
  | feZero => exact P.safe_FeZero (h _ rfl)
  | feOne => exact P.safe_FeOne (h _ rfl)
  | feAdd => exact P.safe_FeAdd (h _ rfl)
  | feSub => exact P.safe_FeSub (h _ rfl)
  | feCopy => exact P.safe_FeCopy (h _ rfl)
  | feCMove => exact P.safe_FeCMove (h _ rfl)
  | feFromBytes => exact P.safe_FeFromBytes (h _ rfl)
  | feToBytes => exact safe_bind (P.safe_FeToBytes (h _ rfl)) fun _ => safe_pure _
  | feIsNegative => exact safe_bind (P.safe_FeIsNegative (h _ rfl)) fun _ => safe_pure _
  | feIsNonZero => exact safe_bind (P.safe_FeIsNonZero (h _ rfl)) fun _ => safe_pure _
  | feNeg => exact P.safe_FeNeg (h _ rfl)
  | feMul => exact P.safe_FeMul (h _ rfl)
  | feSquare => exact P.safe_FeSquare (h _ rfl)
  | feSquare2 => exact P.safe_FeSquare2 (h _ rfl)
  | feInvert => exact P.safe_FeInvert (h _ rfl)
  | projZero => exact P.safe_projZero (h _ rfl)
  | projDouble => exact P.safe_projDouble (h _ rfl)
  | toBytes => exact safe_bind P.safe_toBytes fun _ => safe_pure _
  | extZero => exact P.safe_extZero (h _ rfl)
  | extDouble => exact P.safe_extDouble (h _ rfl)
  | extToCached => exact P.safe_toCached (h _ rfl)
  | extToProjective => exact P.safe_extToProjective (h _ rfl)
  | fromBytes => exact safe_bind (P.safe_fromBytes (h _ rfl)) fun _ => safe_pure _
  | complToProjective => exact P.safe_complToProjective (h _ rfl)
  | complToExtended => exact P.safe_toExtended (h _ rfl)
  | preZero => exact P.safe_preZero (h _ rfl)
  | preCMove => exact P.safe_preCMove (h _ rfl)
  | scalarMultBase => exact P.safe_GeScalarMultBase (h _ rfl)
  | doubleScalarMult => exact P.safe_GeDoubleScalarMultVartime (h _ rfl)

end

/-- A piece of work: a call on variables of the goroutine, or a request for a public key or a signature. -/
inductive Task
  | call (c : Call)
  | ask (q : Request)

/-- The work of one goroutine; it collects the answers to its requests. -/
def tasksProg (H : Hashes) : List Task → Prog (List (Res Bytes))
  | [] => pure []
  | .call c :: ts => do
    c.prog
    tasksProg H ts
  | .ask q :: ts => do
    let a ← match q with
      | .pub key => P.MakePublicKey key
      | .sign key message => P.Sign H key message
    let rest ← tasksProg H ts
    return a :: rest

/-- The calls write variables of the goroutine. -/
def OwnTasks (ts : List Task) : Prop := ∀ c, Task.call c ∈ ts → ∀ w, c.writes = some w → firstFree ≤ w

theorem safe_tasksProg (H : Hashes) (ts : List Task) (h : OwnTasks ts) : (tasksProg H ts).Safe := by
  induction ts with
  | nil => trivial
  | cons t ts ih =>
    have ih := ih fun c hc => h c (List.mem_cons_of_mem _ hc)
    cases t with
    | call c => exact safe_bind (Call.safe_prog (h c List.mem_cons_self)) fun _ => ih
    | ask q =>
      cases q with
      | pub key => exact safe_bind (P.safe_MakePublicKey key) fun _ => safe_bind ih fun _ => safe_pure _
      | sign key message => exact safe_bind (P.safe_Sign H key message) fun _ => safe_bind ih fun _ => safe_pure _

/-- A program that writes no variable of the package leaves them as they are. -/
theorem safe_shared {α : Type} (p : Prog α) (h : p.Safe) (m : Mem) (hm : firstFree ≤ m.next) :
    firstFree ≤ (p.run m).2.next ∧ ∀ o f i, o < firstFree → (p.run m).2.cell o f i = m.cell o f i := by
  induction p generalizing m with
  | ret a => exact ⟨hm, fun _ _ _ _ => rfl⟩
  | read o f i k ih => exact ih _ (h _) m hm
  | write o f i v k ih =>
    obtain ⟨a, b⟩ := ih h.2 (m.wr (o, f) i v) hm
    refine ⟨a, fun o' f' i' ho => (b o' f' i' ho).trans ?_⟩
    have := h.1
    show (if _ then _ else _) = _
    rw [if_neg (by rintro ⟨rfl, -⟩; exact absurd this (Nat.not_le.2 ho))]
  | new n k ih =>
    have hn : firstFree ≤ (m.news n).next := Nat.le_trans hm (Nat.le_add_right _ _)
    obtain ⟨a, b⟩ := ih _ (h _ hm) (m.news n) hn
    refine ⟨a, fun o' f' i' ho => (b o' f' i' ho).trans ?_⟩
    show (if _ then _ else _) = _
    rw [if_neg (by omega)]

theorem TablesIntact.of_cells {m m' : Mem} (h : TablesIntact m) (hn : firstFree ≤ m'.next) (hc : ∀ o f i, o < firstFree → m'.cell o f i = m.cell o f i) :
    TablesIntact m' := by
  have e : ∀ o f, o < firstFree → m'.fe (o, f) = m.fe (o, f) := fun o f ho => by
    unfold Mem.fe
    exact List.map_congr_left fun i _ => hc o f i ho
  have e' : ∀ o, o < firstFree → m'.pre o = m.pre o := fun o ho => by unfold Mem.pre; rw [e o 0 ho, e o 1 ho, e o 2 ho]
  rw [tablesIntact_iff] at h ⊢
  exact ⟨hn, (e _ _ (by decide)).trans h.zero, (e _ _ (by decide)).trans h.d, (e _ _ (by decide)).trans h.d2, (e _ _ (by decide)).trans h.sqrtM1,
    fun pos i hp hi => (e' _ (by unfold baseO firstFree; omega)).trans (h.base pos i hp hi), fun j hj => (e' _ (by unfold biO firstFree; omega)).trans (h.bi j hj)⟩

/-- The answers that the requests get when nothing else is going on. -/
def answers (H : Hashes) : List Task → List (Res Bytes)
  | [] => []
  | .call _ :: ts => answers H ts
  | .ask (.pub key) :: ts => MakePublicKey key :: answers H ts
  | .ask (.sign key message) :: ts => Sign H key message :: answers H ts

theorem run_tasksProg (H : Hashes) (ts : List Task) (h : OwnTasks ts) (m : Mem) (hm : TablesIntact m) : ((tasksProg H ts).run m).1 = answers H ts := by
  induction ts generalizing m with
  | nil => rfl
  | cons t ts ih =>
    have hts : OwnTasks ts := fun c hc => h c (List.mem_cons_of_mem _ hc)
    cases t with
    | call c =>
      obtain ⟨a, b⟩ := safe_shared _ (Call.safe_prog (h c List.mem_cons_self)) m hm.own
      rw [tasksProg, run_bind]
      exact ih hts _ (hm.of_cells a b)
    | ask q =>
      cases q with
      | pub key =>
        obtain ⟨a, b⟩ := safe_shared _ (P.safe_MakePublicKey key) m hm.own
        have := ih hts _ (hm.of_cells a b)
        simp only [tasksProg, run_bind, run_pure, answers, P.run_MakePublicKey]
        rw [(MakePublicKey_ptr ((tablesIntact_iff _).1 hm) key).1]
        rw [P.run_MakePublicKey] at this
        rw [this]
      | sign key message =>
        obtain ⟨a, b⟩ := safe_shared _ (P.safe_Sign H key message) m hm.own
        have := ih hts _ (hm.of_cells a b)
        simp only [tasksProg, run_bind, run_pure, answers, P.run_Sign]
        rw [(Sign_ptr ((tablesIntact_iff _).1 hm) H key message).1]
        rw [P.run_Sign] at this
        rw [this]

/-! ### Races -/

/-- The goroutine's next step writes limb `i` of field `f` of the package's variable `o`. -/
def WritesNext {T α : Type} (s : Pool T α) (t : T) (o f i : Nat) : Prop := o < firstFree ∧ ∃ v k, s.prog t = .write o f i v k

/-- The goroutine's next step reads it. -/
def ReadsNext {T α : Type} (s : Pool T α) (t : T) (o f i : Nat) : Prop := o < firstFree ∧ ∃ k, s.prog t = .read o f i k

/-- A data race: two goroutines can both access one location next, and one of them writes it. (Variables of the goroutines themselves cannot be reached by others.) -/
def DataRace {T α : Type} (s : Pool T α) : Prop :=
  ∃ t t' o f i, t ≠ t' ∧ WritesNext s t o f i ∧ (WritesNext s t' o f i ∨ ReadsNext s t' o f i)

/-- Goroutines `T` start with their tasks and variables, and the variables of the package as `shared` has them. -/
def startPool {T : Type} (H : Hashes) (shared : Nat → Nat → Nat → Int) (own : T → Mem) (tasks : T → List Task) : Pool T (List (Res Bytes)) :=
  { shared, own, prog := fun t => tasksProg H (tasks t) }

variable {T : Type} [DecidableEq T]

omit [DecidableEq T] in
theorem startPool_good (H : Hashes) (shared : Nat → Nat → Nat → Int) (own : T → Mem) (tasks : T → List Task) (ho : ∀ t, OwnTasks (tasks t))
    (hn : ∀ t, firstFree ≤ (own t).next) : (startPool H shared own tasks).Good :=
  ⟨fun t => safe_tasksProg H _ (ho t), hn⟩

omit [DecidableEq T] in
theorem view_tables {α : Type} (s : Pool T α) (t : T) (hs : s.shared = start.cell) (hn : firstFree ≤ (s.own t).next) : TablesIntact (s.view t) :=
  C104_start.of_cells hn fun o f i ho => by
    show (if o < firstFree then s.shared o f i else _) = _
    rw [if_pos ho, hs]

/-- **C111** (no data race, tables intact). Whatever the goroutines have done so far and in whatever order, there is no data race, and each sees the tables of the
package as they are in `const.go`. -/
theorem C111_no_race (H : Hashes) (own : T → Mem) (tasks : T → List Task) (ho : ∀ t, OwnTasks (tasks t)) (hn : ∀ t, firstFree ≤ (own t).next) (schedule : List T) :
    ¬ DataRace ((startPool H start.cell own tasks).exec schedule) ∧ ∀ t, TablesIntact (((startPool H start.cell own tasks).exec schedule).view t) := by
  have hg := startPool_good H start.cell own tasks ho hn
  refine ⟨?_, fun t => ?_⟩
  · rintro ⟨t, -, o, f, i, -, ⟨h1, v, k, e⟩, -⟩
    exact Pool.no_race schedule _ hg t ⟨o, f, i, v, k, e, h1⟩
  · obtain ⟨a, b, -⟩ := Pool.exec_spec schedule _ hg
    exact view_tables _ t b (a.free t)

/-- **C111** (answers). A goroutine that has finished has got, for each of its requests, the public key or the signature that the request alone gets. -/
theorem C111_answers (H : Hashes) (own : T → Mem) (tasks : T → List Task) (ho : ∀ t, OwnTasks (tasks t)) (hn : ∀ t, firstFree ≤ (own t).next) (schedule : List T)
    (t : T) (a : List (Res Bytes)) (hd : ((startPool H start.cell own tasks).exec schedule).prog t = .ret a) : a = answers H (tasks t) := by
  have hg := startPool_good H start.cell own tasks ho hn
  rw [(Pool.done schedule _ hg t a hd).1]
  exact run_tasksProg H _ (ho t) _ (view_tables _ t rfl (hn t))

/-- The variables after calls made one after the other, nothing else going on. -/
def afterCalls (cs : List Call) (m : Mem) : Mem := cs.foldl Call.run m

/-- **C111** (variables). A goroutine that makes calls on its variables finds in them, when it has finished, what the calls alone would have put there. -/
theorem C111_variables (H : Hashes) (own : T → Mem) (tasks : T → List Task) (ho : ∀ t, OwnTasks (tasks t)) (hn : ∀ t, firstFree ≤ (own t).next) (schedule : List T)
    (t : T) (a : List (Res Bytes)) (hd : ((startPool H start.cell own tasks).exec schedule).prog t = .ret a) (cs : List Call) (ht : tasks t = cs.map .call) :
    ((startPool H start.cell own tasks).exec schedule).view t = afterCalls cs ((startPool H start.cell own tasks).view t) := by
  have hg := startPool_good H start.cell own tasks ho hn
  rw [(Pool.done schedule _ hg t a hd).2]
  show ((tasksProg H (tasks t)).run _).2 = _
  rw [ht]
  generalize (startPool H start.cell own tasks).view t = m
  clear ht hd hg
  induction cs generalizing m with
  | nil => rfl
  | cons c cs ih => rw [List.map_cons, tasksProg, run_bind, Call.run_prog]; exact ih _

/-- **C111** (end). There is a number of steps after which a goroutine has finished, however many steps the others get in between. -/
theorem C111_ends (H : Hashes) (own : T → Mem) (tasks : T → List Task) (ho : ∀ t, OwnTasks (tasks t)) (hn : ∀ t, firstFree ≤ (own t).next) (t : T) :
    ∃ n, ∀ schedule : List T, n ≤ schedule.count t → ((startPool H start.cell own tasks).exec schedule).prog t = .ret (answers H (tasks t)) := by
  have hg := startPool_good H start.cell own tasks ho hn
  refine ⟨((startPool H start.cell own tasks).prog t).cost ((startPool H start.cell own tasks).view t), fun schedule hs => ?_⟩
  obtain ⟨a, e⟩ := Pool.ends schedule _ hg t hs
  rw [e, C111_answers H own tasks ho hn schedule t a e]

/-- **C111** (signatures). The signatures that goroutines get for keys of `NewXPrv` are valid for their public keys. -/
theorem C111_signatures (H : Hashes) (hH : H.Ok) (own : T → Mem) (tasks : T → List Task) (ho : ∀ t, OwnTasks (tasks t)) (hn : ∀ t, firstFree ≤ (own t).next)
    (schedule : List T) (t : T) (key : Bytes) (messages : List Bytes) (ht : tasks t = messages.map fun m => .ask (.sign key m)) (hk : key.length = 96)
    (hs : leNat (key.take 32) < 2 ^ 255) (a : List (Res Bytes)) (hd : ((startPool H start.cell own tasks).exec schedule).prog t = .ret a) :
    ∃ pk, MakePublicKey key = .ok pk ∧ ∀ (i : Nat) (m : Bytes), messages[i]? = some m → ∃ sig, a[i]? = some (.ok sig) ∧ Valid H.sha512 pk m sig := by
  have ha := C111_answers H own tasks ho hn schedule t a hd
  obtain ⟨-, pk, -, h2, -⟩ := C37_signature_valid H hH key hk hs []
  refine ⟨pk, h2, fun i m hi => ?_⟩
  obtain ⟨sig, pk', h1, h2', h3⟩ := C37_signature_valid H hH key hk hs m
  obtain rfl : pk' = pk := by rw [h2] at h2'; injection h2' with e; exact e.symm
  have e : ∀ l : List Bytes, answers H (l.map fun m => .ask (.sign key m)) = l.map (Sign H key) := fun l => by
    induction l with
    | nil => rfl
    | cons x l ih => simp only [List.map_cons, answers, ih]
  refine ⟨sig, ?_, h3⟩
  rw [ha, ht, e, List.getElem?_map, hi, Option.map_some, h1]

/-! ### Cases -/

/-- Goroutine `false` derives a public key and signs, goroutine `true` doubles a point of its own and signs with another key. -/
def twoGoroutines : Bool → List Task
  | false => [.ask (.pub (List.replicate 96 7)), .ask (.sign (List.replicate 96 7) [1, 2, 3])]
  | true => [.call (.extZero 268), .call (.extDouble 268 269), .ask (.sign (List.replicate 96 9) [4, 5])]

theorem twoGoroutines_own (t : Bool) : OwnTasks (twoGoroutines t) := by
  intro c hc w hw
  cases t with
  | false => simp [twoGoroutines] at hc
  | true =>
    simp only [twoGoroutines, List.mem_cons, Task.call.injEq, reduceCtorEq, List.not_mem_nil, or_false] at hc
    rcases hc with rfl | rfl <;> (injection hw with hw; subst hw; decide)

/-- Both finish when they take turns for long enough, with these answers. -/
example (H : Hashes) : ∃ n, ∀ k, n ≤ k → ∀ t,
    ((startPool H start.cell (fun _ => twoVariables) twoGoroutines).exec (List.replicate k [false, true]).flatten).prog t = .ret (answers H (twoGoroutines t)) := by
  have hn : ∀ t : Bool, firstFree ≤ twoVariables.next := fun _ => by rw [twoVariables_next]; decide
  obtain ⟨n1, h1⟩ := C111_ends H (fun _ => twoVariables) twoGoroutines twoGoroutines_own hn false
  obtain ⟨n2, h2⟩ := C111_ends H (fun _ => twoVariables) twoGoroutines twoGoroutines_own hn true
  have hc : ∀ k t, (List.replicate k [false, true]).flatten.count t = k := fun k t => by
    induction k with
    | zero => rfl
    | succ k ih => rw [List.replicate_succ, List.flatten_cons, List.count_append, ih]; cases t <;> simp [Nat.add_comm]
  refine ⟨n1 + n2, fun k hk t => ?_⟩
  cases t with
  | false => exact h1 _ (by rw [hc]; omega)
  | true => exact h2 _ (by rw [hc]; omega)

/-- A program that writes a table, as no function of the package does, races with a goroutine that reads it: the notion of a race is not empty. -/
example : DataRace ({ shared := start.cell, own := fun _ => twoVariables, prog := fun t => if t then P.wr dL 0 1 else (do let _ ← P.rd dL 0) } : Pool Bool Unit) :=
  ⟨true, false, _, _, _, by decide, ⟨by decide, _, _, rfl⟩, .inr ⟨by decide, _, rfl⟩⟩

end Cardano.Props
