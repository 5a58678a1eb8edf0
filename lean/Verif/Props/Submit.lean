import Verif.Node.Submit
import Verif.Props.Node
/-!
# Properties C74, C75: files used while submitting through `cardano-cli`; which program is run
-/
set_option autoImplicit false

namespace Cardano.Props
open Node Cbor TxSpec Transaction Addr Cardano.Spec

/-! ### C74 -/

/-- What a user sees of the operating system: the files with their contents, the files the program holds open, and for every process that was
run the contents its input file had at that moment. -/
structure World where
  files : Bytes → Option Bytes
  opened : Bytes → Bool
  /-- command, arguments, and all files at that moment -/
  ran : List (Bytes × List Bytes × (Bytes → Option Bytes))

/-- The effect of an operation. -/
def World.step (w : World) : Event → World
  | .create p => { w with files := fun q => if q = p then some [] else w.files q, opened := fun q => q = p ∨ w.opened q }
  | .write p d => { w with files := fun q => if q = p then (w.files p).map (· ++ d) else w.files q }
  | .exec c args => { w with ran := w.ran ++ [(c, args, w.files)] }
  | .close p => { w with opened := fun q => q ≠ p ∧ w.opened q }
  | .remove p => { w with files := fun q => if q = p then none else w.files q }

/-- The effect of several operations. -/
def World.after (w : World) (l : List Event) : World := l.foldl World.step w

/-- The operating system hands out new names, not in use. -/
def Fresh (os : OS) (w : World) : Prop := ∀ p, os.tempFile = .ok p → w.files p = none ∧ w.opened p = false

/-- **C74 (partial).** Whatever fails on the way: after `SubmitTx` the files are those there were before; no process is run if the transaction cannot be
encoded or the file cannot be created or written, otherwise exactly one is run, the given program, and at that moment the file its arguments
name holds the hexadecimal encoding of the transaction in the envelope; the files the program holds open are those from before if the file
could be written and the process succeeded. Missing: the file is not closed if writing or running fails, see `C74_left_open`. -/
theorem C74_files_partial (C : Crypto) (os : OS) (cliPath : Bytes) (net : NetworkInfo) (t : Tx) (k : Nat) (w : World) (hw : Fresh os w) :
    let r := cliSubmit C os cliPath net t k
    let w' := w.after r.2
    w'.files = w.files ∧
    (w'.ran = w.ran ∧ r.1.2 ≠ none ∧ r.1.1 = [] ∨
      ∃ p h args files, os.tempFile = .ok p ∧ Transaction.hex C t k = .ok h ∧ w'.ran = w.ran ++ [(cliPath, args, files)] ∧
        asc ['-','-','t','x','-','f','i','l','e',' '] ++ p ∈ args ∧ files p = some (submitFile h) ∧
        (∀ q, q ≠ p → files q = w.files q) ∧
        (∀ out, os.run cliPath (submitFile h) args = .ok out → r.1.1 = out ∧ w'.opened = w.opened)) ∧
    (os.writeErr = none → r.1.2 = none → w'.opened = w.opened) := by
  dsimp only
  unfold cliSubmit
  cases e : Transaction.hex C t k with
  | err m => exact ⟨rfl, Or.inl ⟨rfl, nofun, rfl⟩, fun _ _ => rfl⟩
  | panic => exact ⟨rfl, Or.inl ⟨rfl, nofun, rfl⟩, fun _ _ => rfl⟩
  | ok h =>
    dsimp only
    cases ht : os.tempFile with
    | error m => exact ⟨rfl, Or.inl ⟨rfl, nofun, rfl⟩, fun _ _ => rfl⟩
    | ok p =>
      have hp := hw p ht
      have hfiles : ∀ (d : Bytes), (fun q => if q = p then none else (if q = p then (if p = p then some [] else w.files p).map (· ++ d) else
          if q = p then some [] else w.files q)) = w.files := by
        intro d; funext q
        by_cases hq : q = p
        · subst hq; rw [if_pos rfl, hp.1]
        · rw [if_neg hq, if_neg hq, if_neg hq]
      have hopen : (fun q => decide (q ≠ p ∧ (decide (q = p ∨ w.opened q = true)) = true)) = w.opened := by
        funext q
        by_cases hq : q = p
        · subst hq; simp [hp.2]
        · simp [hq]
      dsimp only
      cases hwr : os.writeErr with
      | some m =>
        refine ⟨?_, Or.inl ⟨rfl, nofun, rfl⟩, nofun⟩
        exact hfiles _
      | none =>
        dsimp only
        cases hr : os.run cliPath (submitFile h) (cliArgs net [asc ['s','u','b','m','i','t'], asc ['-','-','t','x','-','f','i','l','e',' '] ++ p]) with
        | error m =>
          refine ⟨hfiles _, Or.inr ⟨p, h, _, _, rfl, rfl, rfl, ?_, ?_, ?_, ?_⟩, nofun⟩
          · simp [cliArgs]
          · simp [World.step]
          · intro q hq; simp [World.step, hq]
          · intro out ho; rw [hr] at ho; cases ho
        | ok out =>
          dsimp only
          cases hc : os.closeErr with
          | some m =>
            refine ⟨hfiles _, Or.inr ⟨p, h, _, _, rfl, rfl, rfl, ?_, ?_, ?_, ?_⟩, nofun⟩
            · simp [cliArgs]
            · simp [World.step]
            · intro q hq; simp [World.step, hq]
            · intro out' ho; rw [hr] at ho; cases ho; exact ⟨rfl, hopen⟩
          | none =>
            refine ⟨hfiles _, Or.inr ⟨p, h, _, _, rfl, rfl, rfl, ?_, ?_, ?_, ?_⟩, fun _ _ => hopen⟩
            · simp [cliArgs]
            · simp [World.step]
            · intro q hq; simp [World.step, hq]
            · intro out' ho; rw [hr] at ho; cases ho; exact ⟨rfl, hopen⟩

/-- **C74, the gap.** If the file cannot be written, or the process fails, the file stays open: every failed submission uses up a file descriptor. -/
theorem C74_left_open (C : Crypto) (os : OS) (cliPath : Bytes) (net : NetworkInfo) (t : Tx) (k : Nat) (w : World) (p h : Bytes)
    (hh : Transaction.hex C t k = .ok h) (hp : os.tempFile = .ok p)
    (hfail : os.writeErr ≠ none ∨ ∀ args, ∃ m, os.run cliPath (submitFile h) args = .error m) :
    let r := cliSubmit C os cliPath net t k
    (w.after r.2).opened p = true ∧ r.1.2 ≠ none := by
  dsimp only
  unfold cliSubmit
  rw [hh]; dsimp only
  rw [hp]; dsimp only
  cases hwr : os.writeErr with
  | some m => exact ⟨by simp [World.after, World.step], nofun⟩
  | none =>
    rcases hfail with hf | hf
    · exact absurd hwr hf
    · dsimp only
      obtain ⟨m, hm⟩ := hf (cliArgs net [asc ['s','u','b','m','i','t'], asc ['-','-','t','x','-','f','i','l','e',' '] ++ p])
      rw [hm]
      exact ⟨by simp [World.after, World.step], nofun⟩

/-- **C74, an error after success.** If only closing fails, `SubmitTx` returns an error although the process has run and succeeded; the text it printed is
returned as well. -/
theorem C74_error_after_submission (C : Crypto) (os : OS) (cliPath : Bytes) (net : NetworkInfo) (t : Tx) (k : Nat) (w : World) (p h out : Bytes) (m : String)
    (hh : Transaction.hex C t k = .ok h) (hp : os.tempFile = .ok p) (hw : os.writeErr = none) (hr : ∀ args, os.run cliPath (submitFile h) args = .ok out)
    (hc : os.closeErr = some m) :
    let r := cliSubmit C os cliPath net t k
    r.1 = (out, some m) ∧ (w.after r.2).ran.length = w.ran.length + 1 := by
  dsimp only
  unfold cliSubmit
  rw [hh]; dsimp only
  rw [hp]; dsimp only
  rw [hw]; dsimp only
  rw [hr]; dsimp only
  rw [hc]
  exact ⟨rfl, by simp [World.after, World.step]⟩

/-- When all operations on the file succeed this is the function of `Node/Model`. -/
theorem cliSubmit_agrees (C : Crypto) (os : OS) (cliPath : Bytes) (net : NetworkInfo) (t : Tx) (k : Nat) (p : Bytes)
    (run : Bytes → List Bytes → Res Bytes) (hrun : ∀ d a, run d a = match os.run cliPath d a with | .ok b => .ok b | .error m => .err m)
    (hp : os.tempFile = .ok p) (hw : os.writeErr = none) (hc : os.closeErr = none) (out : Bytes) :
    cliSubmitTx C run net p t k = .ok out ↔ (cliSubmit C os cliPath net t k).1 = (out, none) := by
  unfold cliSubmitTx cliSubmit
  cases e : Transaction.hex C t k with
  | err m => simp
  | panic => simp
  | ok h =>
    rw [Res.ok_bind]; dsimp only
    rw [hp]; dsimp only
    rw [hw]; dsimp only
    unfold execCommand
    rw [hrun]
    cases os.run cliPath (submitFile h) (cliArgs net [asc ['s','u','b','m','i','t'], asc ['-','-','t','x','-','f','i','l','e',' '] ++ p]) with
    | error m => simp
    | ok o => rw [hc]; simp

/-- An operating system on which the process fails with `fails`, the program being any but the empty name. -/
def sampleOS (fails closeFails : Bool) : OS where
  tempFile := .ok [47, 116]
  writeErr := none
  run := fun c d _ => if c = [] ∨ fails then .error "exit status 1" else .ok (d.take 3)
  closeErr := if closeFails then some "close" else none

/-- A world with one other file, open. -/
def sampleWorld : World := ⟨fun q => if q = [1] then some [2] else none, fun q => q = [1], []⟩

/-- The hypotheses of the theorems above hold for a transaction with input, output, witness and metadata. -/
example : Fresh (sampleOS true false) sampleWorld ∧ (∃ h, Transaction.hex sampleCrypto sampleTx 5 = .ok h) ∧
    (∀ d a, ∃ m, (sampleOS true false).run [99] d a = .error m) ∧ (∀ d a, (sampleOS false true).run [99] d a = .ok (d.take 3)) ∧
    (sampleOS false true).closeErr = some "close" := by
  refine ⟨?_, ⟨_, rfl⟩, fun d a => ⟨_, rfl⟩, fun d a => rfl, rfl⟩
  intro p hp
  injection hp with hp
  subst hp
  exact ⟨rfl, rfl⟩

/-! ### C75 -/

/-- **C75 (partial).** The program that is run is the first path given, and `cardano-cli` if none is given; further paths are ignored. Missing: with an empty path
there is no default, see `C75_empty_path`. -/
theorem C75_path_partial :
    newCliPath [] = "cardano-cli".toUTF8.data.toList ∧ ∀ p rest, newCliPath (p :: rest) = p := by
  refine ⟨by decide +kernel, fun p rest => ?_⟩
  unfold newCliPath
  by_cases h : p = [] <;> simp [h]

/-- **C75, the gap.** With an empty path the program to run is the empty string, not `cardano-cli`: on a system that has no program of that name every
submission fails. -/
theorem C75_empty_path (C : Crypto) (os : OS) (hos : ∀ d a, ∃ m, os.run [] d a = .error m) (net : NetworkInfo) (t : Tx) (k : Nat) (rest : List Bytes) :
    newCliPath ([] :: rest) ≠ newCliPath [] ∧
    (cliSubmit C os (newCliPath ([] :: rest)) net t k).1.2 ≠ none := by
  have e : newCliPath ([] :: rest) = [] := rfl
  refine ⟨by rw [e]; decide, ?_⟩
  rw [e]
  unfold cliSubmit
  cases Transaction.hex C t k with
  | err m => exact nofun
  | panic => exact nofun
  | ok h =>
    dsimp only
    cases os.tempFile with
    | error m => exact nofun
    | ok p =>
      dsimp only
      cases os.writeErr with
      | some m => exact nofun
      | none =>
        dsimp only
        obtain ⟨m, hm⟩ := hos (submitFile h) (cliArgs net [asc ['s','u','b','m','i','t'], asc ['-','-','t','x','-','f','i','l','e',' '] ++ p])
        rw [hm]
        exact nofun

/-- The empty program fails on this system. -/
example : ∀ d a, ∃ m, (sampleOS false false).run [] d a = .error m := fun _ _ => ⟨_, rfl⟩

/-! ### C76 -/

/-- How the tool reads a long option with a value: the argument is the name and the next argument the value, or one argument is the name, `=`, and the value. -/
inductive HasOption (name value : Bytes) : List Bytes → Prop where
  | two (pre post : List Bytes) : HasOption name value (pre ++ name :: value :: post)
  | one (pre post : List Bytes) : HasOption name value (pre ++ (name ++ 61 :: value) :: post)

theorem not_hasOption (name value : Bytes) (args : List Bytes) (h : ∀ a ∈ args, a ≠ name ∧ ¬ (name ++ [61]) <+: a) : ¬ HasOption name value args := by
  intro ho
  cases ho with
  | two pre post => exact (h name (by simp)).1 rfl
  | one pre post => exact (h (name ++ 61 :: value) (by simp)).2 ⟨value, by simp⟩

/-- The options `--address` and `--tx-file`, and the commands. -/
def addressOption : Bytes := "--address".toUTF8.data.toList
def txFileOption : Bytes := "--tx-file".toUTF8.data.toList

theorem suffix_not (net : NetworkInfo) (name : Bytes) (hn : name = addressOption ∨ name = txFileOption) :
    ∀ a ∈ cliArgs net [], a ≠ name ∧ ¬ (name ++ [61]) <+: a := by
  have e1 : addressOption = asc ['-','-','a','d','d','r','e','s','s'] := by decide +kernel
  have e2 : txFileOption = asc ['-','-','t','x','-','f','i','l','e'] := by decide +kernel
  intro a ha
  unfold cliArgs at ha
  rw [List.nil_append, List.mem_singleton] at ha
  have key : ∀ c rest, a = 45 :: 45 :: c :: rest → (c = 109 ∨ c = 116 ∧ ∃ r, rest = 101 :: r) → a ≠ name ∧ ¬ (name ++ [61]) <+: a := by
    intro c rest e hc
    subst e
    rcases hn with rfl | rfl
    · rw [e1]
      rcases hc with rfl | ⟨rfl, r, rfl⟩
      · exact ⟨by simp [asc], by simp [asc]⟩
      · exact ⟨by simp [asc], by simp [asc]⟩
    · rw [e2]
      rcases hc with rfl | ⟨rfl, r, rfl⟩
      · exact ⟨by simp [asc], by simp [asc]⟩
      · exact ⟨by simp [asc], by simp [asc]⟩
  split at ha
  · exact key 109 _ (ha.trans rfl) (Or.inl rfl)
  · exact key 116 _ (ha.trans rfl) (Or.inr ⟨rfl, _, rfl⟩)

/-- **C76 fails (addresses).** Whatever the network and the address: no value of the option `--address` reaches the tool, since option and address are passed as one
argument with a space in it. `args` are the arguments of the process that `UTXOs` runs. -/
theorem C76_address_not_passed (net : NetworkInfo) (addr value : Bytes) (run : List Bytes → Res Bytes) :
    ∃ args, (∀ run' : List Bytes → Res Bytes, run' args = run args → cliUTXOs run' net addr = cliUTXOs run net addr) ∧
      ¬ HasOption addressOption value args := by
  refine ⟨cliArgs net [asc ['q','u','e','r','y'], asc ['u','t','x','o','s'], asc ['-','-','a','d','d','r','e','s','s',' '] ++ addr], ?_, ?_⟩
  · intro run' h
    unfold cliUTXOs execCommand
    rw [h]
  · apply not_hasOption
    intro a ha
    have e1 : addressOption = asc ['-','-','a','d','d','r','e','s','s'] := by decide +kernel
    have := suffix_not net addressOption (Or.inl rfl) a
    unfold cliArgs at ha this
    simp only [List.cons_append, List.nil_append, List.mem_cons, List.not_mem_nil, or_false] at ha this
    rcases ha with rfl | rfl | rfl | h
    · rw [e1]; exact ⟨by simp [asc], by simp [asc]⟩
    · rw [e1]; exact ⟨by simp [asc], by simp [asc]⟩
    · rw [e1]; exact ⟨by simp [asc], by simp [asc]⟩
    · exact this h

/-- **C76 fails (transaction files).** No value of the option `--tx-file` reaches the tool. -/
theorem C76_file_not_passed (C : Crypto) (os : OS) (cliPath : Bytes) (net : NetworkInfo) (t : Tx) (k : Nat) (w : World) (value : Bytes)
    (c : Bytes) (args : List Bytes) (files : Bytes → Option Bytes)
    (h : (w.after (cliSubmit C os cliPath net t k).2).ran = w.ran ++ [(c, args, files)]) : ¬ HasOption txFileOption value args := by
  have main : ∀ p, ¬ HasOption txFileOption value (cliArgs net [asc ['s','u','b','m','i','t'], asc ['-','-','t','x','-','f','i','l','e',' '] ++ p]) := by
    intro p
    apply not_hasOption
    intro a ha
    have e1 : txFileOption = asc ['-','-','t','x','-','f','i','l','e'] := by decide +kernel
    have := suffix_not net txFileOption (Or.inr rfl) a
    unfold cliArgs at ha this
    simp only [List.cons_append, List.nil_append, List.mem_cons, List.not_mem_nil, or_false] at ha this
    rcases ha with rfl | rfl | h
    · rw [e1]; exact ⟨by simp [asc], by simp [asc]⟩
    · rw [e1]; exact ⟨by simp [asc], by simp [asc]⟩
    · exact this h
  have none' : w.ran ≠ w.ran ++ [(c, args, files)] := by simp
  unfold cliSubmit at h
  cases e : Transaction.hex C t k with
  | err m => rw [e] at h; exact absurd h none'
  | panic => rw [e] at h; exact absurd h none'
  | ok hx =>
    rw [e] at h; dsimp only at h
    cases hp : os.tempFile with
    | error m => rw [hp] at h; exact absurd h none'
    | ok p =>
      rw [hp] at h; dsimp only at h
      cases hw : os.writeErr with
      | some m => rw [hw] at h; exact absurd h none'
      | none =>
        rw [hw] at h; dsimp only at h
        have one : ∀ {x}, w.ran ++ [(cliPath, cliArgs net [asc ['s','u','b','m','i','t'], asc ['-','-','t','x','-','f','i','l','e',' '] ++ p], x)]
            = w.ran ++ [(c, args, files)] → ¬ HasOption txFileOption value args := by
          intro x hx
          have := List.append_cancel_left hx
          injection this with this
          injection this with _ this
          injection this with this
          exact this ▸ main p
        cases hr : os.run cliPath (submitFile hx) (cliArgs net [asc ['s','u','b','m','i','t'], asc ['-','-','t','x','-','f','i','l','e',' '] ++ p]) with
        | error m => rw [hr] at h; exact one h
        | ok out =>
          rw [hr] at h; dsimp only at h
          cases hc : os.closeErr with
          | some m => rw [hc] at h; exact one h
          | none => rw [hc] at h; exact one h

/-- The tool would find the option if it were passed in either of the two ways. -/
example : HasOption addressOption [97] [[113], addressOption, [97]] ∧ HasOption addressOption [97] [[113], addressOption ++ [61, 97]] :=
  ⟨.two [[113]] [], .one [[113]] []⟩

end Cardano.Props
