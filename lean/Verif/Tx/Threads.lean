import Verif.Tx.Ops
import Mathlib.Logic.Function.Basic
/-!
# Builders used by several goroutines

Inputs, outputs and slices of keys may be shared by goroutines; the rest of a builder (its struct, the transaction, the body, the witness objects, the arrays behind the slices of inputs and
outputs) is made by `NewTxBuilder` and the calls on the builder, and is reached only through it, so that a goroutine which keeps its builders to itself has it to itself. Here every read and
write of shared memory is one step, and steps of different goroutines are interleaved in any order. (By the memory model of Go, a program without data races behaves like some such interleaving;
that there are no races is part of what is proved.) Work on private memory is part of the step before it.
-/
set_option autoImplicit false

namespace Cardano.TxThreads
open Transaction TxBuilder

/-- A place in shared memory: the fields of input object `p` (tx_input_output.go:10-16) and of output object `p` (tx_input_output.go:42-46), and element `i` of array `a` of keys.
(The bytes of a hash or key and the object behind an address are not written by the package, C83 and C112; reading them is one step with reading the field.) -/
inductive Loc
  | inHash (p : Nat)
  | inIndex (p : Nat)
  | inAmount (p : Nat)
  | outAddress (p : Nat)
  | outAmount (p : Nat)
  | key (a i : Nat)
  deriving DecidableEq

/-- What is stored there. -/
def Loc.Val : Loc → Type
  | .inHash _ => Bytes
  | .inIndex _ => UInt16
  | .inAmount _ => UInt64
  | .outAddress _ => Address
  | .outAmount _ => UInt64
  | .key _ _ => Bytes

/-- The shared memory. -/
abbrev Shared := (l : Loc) → l.Val

/-- A program: reads and writes of shared memory, and a result. -/
inductive Prog (α : Type) : Type
  | ret (a : α)
  | read (l : Loc) (k : l.Val → Prog α)
  | write (l : Loc) (v : l.Val) (k : Prog α)

namespace Prog
variable {α β : Type}

/-- One program after the other. -/
def bind : Prog α → (α → Prog β) → Prog β
  | ret a, g => g a
  | read l k, g => read l fun v => (k v).bind g
  | write l v k, g => write l v (k.bind g)

instance : Monad Prog where
  pure := ret
  bind := bind

/-- The program run alone. -/
def run : Prog α → Shared → α × Shared
  | ret a, m => (a, m)
  | read l k, m => (k (m l)).run m
  | write l v k, m => k.run (Function.update m l v)

/-- The number of steps of the program run alone. -/
def cost : Prog α → Shared → Nat
  | ret _, _ => 0
  | read l k, m => (k (m l)).cost m + 1
  | write l v k, m => k.cost (Function.update m l v) + 1

end Prog

/-- The value of a place. -/
def load (l : Loc) : Prog l.Val := .read l .ret

/-- An object of the goroutine, or a pointer to a shared one. -/
inductive Ref (α : Type) where
  | shared (p : Nat)
  | own (a : α)

/-- A slice of keys: the first `len` elements of a shared array, with room for `cap`; or an array of the goroutine. -/
inductive Keys where
  | slice (arr len cap : Nat)
  | own (l : List Bytes)

/-- An element of a slice of keys. -/
inductive KeyCell where
  | at (a i : Nat)
  | own (k : Bytes)

/-- The elements of a slice of keys. -/
def Keys.cells : Keys → List KeyCell
  | .slice a n _ => (List.range n).map (KeyCell.at a)
  | .own l => l.map KeyCell.own

/-- tx_builder.go:11-15 `TxBuilder` with what it points to, as in `Tx/Model.lean`, but with references to shared objects. -/
structure TBuilder where
  inputs : List (Ref TxInput)
  outputs : List (Ref TxOutput)
  fee : UInt64
  ttl : UInt32
  auxHash : Bytes
  wits : List (List VKeyWitness)
  wit : Nat
  valid : Bool
  metadata : Option Metadata
  keys : Keys
  protocol : Protocol
  clock : Nat

/-- The fields of an input. (All are read; where the package reads only some of them, this is more than it does.) -/
def getIn : Ref TxInput → Prog TxInput
  | .shared p => .read (.inHash p) fun (h : Bytes) => .read (.inIndex p) fun (i : UInt16) => .read (.inAmount p) fun (a : UInt64) => .ret ⟨h, i, a⟩
  | .own i => .ret i

/-- The fields of an output. -/
def getOut : Ref TxOutput → Prog TxOutput
  | .shared p => .read (.outAddress p) fun (x : Address) => .read (.outAmount p) fun (a : UInt64) => .ret ⟨x, a⟩
  | .own o => .ret o

/-- An element of a slice of keys. -/
def getKey : KeyCell → Prog Bytes
  | .at a i => .read (.key a i) fun (k : Bytes) => .ret k
  | .own k => .ret k

/-- Every element of a list, in order. -/
def getAll {α β : Type} (f : α → Prog β) : List α → Prog (List β)
  | [] => .ret []
  | x :: l => do
    let y ← f x
    let r ← getAll f l
    .ret (y :: r)

/-- A body as `cbor.Marshal` finds it. -/
def getBody (ins : List (Ref TxInput)) (outs : List (Ref TxOutput)) (fee : UInt64) (ttl : UInt32) (aux : Bytes) : Prog TxBody := do
  let i ← getAll getIn ins
  let o ← getAll getOut outs
  .ret ⟨i, o, fee, ttl, aux⟩

variable (C : Crypto)

/-- tx.go:83-93 `CalculateAuxiliaryDataHash`: the hash in the body afterwards. It reads the metadata only. -/
def auxAfter (aux : Bytes) (m : Option Metadata) (k : Nat) : Bytes := (afterAux C ⟨⟨[], [], 0, 0, aux⟩, [], true, m⟩ k).body.auxHash

/-- tx_builder.go:130-136 `NewTxBuilder`: the slice of keys is kept. -/
def newBuilder (p : Protocol) (ks : Keys) : TBuilder := ⟨[], [], 0, 0, [], [[]], 0, true, none, ks, p, 0⟩

/-- tx_builder.go:18-20 `Sign`: `append` writes into the array if there is room, otherwise it copies. -/
def sign (b : TBuilder) (k : Bytes) : Prog TBuilder :=
  match b.keys with
  | .slice a n cap =>
    if n < cap then .write (.key a n) k (.ret { b with keys := .slice a (n + 1) cap })
    else do
      let l ← getAll getKey b.keys.cells
      .ret { b with keys := .own (l ++ [k]) }
  | .own l => .ret { b with keys := .own (l ++ [k]) }

/-- tx_builder.go:81-117 `MinFee`; the inputs and outputs are read for the totals (line 101) and for each of the two calls of `Fee` (lines 112, 114). -/
def minFee (b : TBuilder) : Prog (UInt64 × TBuilder) := do
  let ws := b.wits.getD b.wit []
  let aux := auxAfter C [] b.metadata b.clock
  let ws' := if ws.length = 0 then ws ++ [dummyWitness] else ws
  let i ← getAll getIn b.inputs
  let o ← getAll getOut b.outputs
  let outs := if totalIn i ≠ totalOut o then b.outputs ++ [.own ⟨innerAddr, totalIn i - totalOut o - 200000⟩] else b.outputs
  let l : LinearFee := ⟨b.protocol.txFeePerByte, b.protocol.txFeeFixed⟩
  let body1 ← getBody b.inputs outs b.fee b.ttl aux
  let fee1 := orZero (fee C l ⟨body1, ws', true, b.metadata⟩ (b.clock + 1))
  let body2 ← getBody b.inputs outs fee1 b.ttl (auxAfter C aux b.metadata (b.clock + 1))
  let fee2 := orZero (fee C l ⟨body2, ws', true, b.metadata⟩ (b.clock + 3))
  .ret (fee2, { b with wits := if ws.length = 0 then b.wits.set b.wit [dummyWitness] else b.wits, clock := b.clock + 5 })

/-- tx_builder.go:50-62 `AddChangeIfNeeded`. -/
def addChange (b : TBuilder) (addr : Address) : Prog TBuilder := do
  let (fee, b) ← minFee C b
  let i ← getAll getIn b.inputs
  let o ← getAll getOut b.outputs
  .ret { b with fee := fee, outputs := b.outputs ++ [.own ⟨addr, totalIn i - totalOut o - fee⟩] }

/-- tx_builder.go:29-35: the loop of `Build` over the keys. -/
def signAll (h : Bytes) : List KeyCell → Prog (Res (List VKeyWitness))
  | [] => .ret (.ok [])
  | c :: r => do
    let prv ← getKey c
    match witnessOf C h prv with
    | .ok w => do
      let ws ← signAll h r
      .ret (ws >>= fun ws => .ok (w :: ws))
    | .err m => .ret (.err m)
    | .panic => .ret .panic

/-- tx_builder.go:23-42 `Build`. -/
def build (b : TBuilder) : Prog (Res Handle × TBuilder) := do
  let body ← getBody b.inputs b.outputs b.fee b.ttl b.auxHash
  let b1 := { b with auxHash := auxAfter C b.auxHash b.metadata b.clock, clock := b.clock + 1 }
  match hash C ⟨body, [], b.valid, b.metadata⟩ b.clock with
  | .err m => .ret (.err m, b1)
  | .panic => .ret (.panic, b1)
  | .ok h => do
    match ← signAll C h b1.keys.cells with
    | .err m => .ret (.err m, b1)
    | .panic => .ret (.panic, b1)
    | .ok ws => .ret (.ok ⟨b1.wits.length, b1.valid, b1.metadata⟩, { b1 with wits := b1.wits ++ [ws], wit := b1.wits.length })

/-- `Bytes`, `Hex` or `Fee` of a transaction returned by `Build` (tx.go:30-45, 64-76). -/
def bytesOf (b : TBuilder) (h : Handle) : Prog (Res Bytes × TBuilder) := do
  let body ← getBody b.inputs b.outputs b.fee b.ttl b.auxHash
  .ret (Transaction.bytes C ⟨body, b.wits.getD h.wit [], h.valid, h.metadata⟩ b.clock, { b with auxHash := auxAfter C b.auxHash h.metadata b.clock, clock := b.clock + 2 })

/-! ## Goroutines -/

/-- A call on a builder. -/
inductive Call where
  | addInputs (l : List (Ref TxInput))
  | addOutputs (l : List (Ref TxOutput))
  | setTTL (ttl : UInt32)
  | sign (xprv : Bytes)
  | minFee
  | addChange (addr : Address)
  | build
  | setMetadata (m : Option Metadata)
  | bytesOf (h : Handle)

/-- What a call returns. -/
inductive Answer where
  | nothing
  | fee (n : UInt64)
  | built (r : Res Handle)
  | bytes (r : Res Bytes)

/-- One call. -/
def call (b : TBuilder) : Call → Prog (Answer × TBuilder)
  | .addInputs l => .ret (.nothing, { b with inputs := b.inputs ++ l })
  | .addOutputs l => .ret (.nothing, { b with outputs := b.outputs ++ l })
  | .setTTL n => .ret (.nothing, { b with ttl := n })
  | .sign k => do
    let b ← sign b k
    .ret (.nothing, b)
  | .minFee => do
    let (n, b) ← minFee C b
    .ret (.fee n, b)
  | .addChange a => do
    let b ← addChange C b a
    .ret (.nothing, b)
  | .build => do
    let (r, b) ← build C b
    .ret (.built r, b)
  | .setMetadata m => .ret (.nothing, { b with metadata := m })
  | .bytesOf h => do
    let (r, b) ← bytesOf C b h
    .ret (.bytes r, b)

/-- What a goroutine does: it makes builders and calls them; what it does next may depend on the answers. -/
inductive Client where
  | done
  | new (p : Protocol) (ks : Keys) (next : Client)
  | call (i : Nat) (c : Call) (next : Answer → Client)

/-- The program of a goroutine which has some builders; the result is the list of all answers, and the builders. -/
def client : Client → List TBuilder → Prog (List Answer × List TBuilder)
  | .done, bs => .ret ([], bs)
  | .new p ks next, bs => client next (bs ++ [newBuilder p ks])
  | .call i c next, bs =>
    match bs[i]? with
    | none => client (next .nothing) bs
    | some b => do
      let (a, b) ← call C b c
      let (l, bs) ← client (next a) (bs.set i b)
      .ret (a :: l, bs)

/-- Goroutines `T` with the shared memory. -/
structure Pool (T α : Type) where
  shared : Shared
  prog : T → Prog α

variable {T α : Type} [DecidableEq T]

/-- One step of goroutine `t`. -/
def Pool.step (s : Pool T α) (t : T) : Pool T α :=
  match s.prog t with
  | .ret _ => s
  | .read l k => { s with prog := Function.update s.prog t (k (s.shared l)) }
  | .write l v k => ⟨Function.update s.shared l v, Function.update s.prog t k⟩

/-- Steps in the order given. -/
def Pool.exec (s : Pool T α) (schedule : List T) : Pool T α := schedule.foldl Pool.step s

/-- The place a program reads or writes next, and whether it writes. -/
def Prog.next : Prog α → Option (Loc × Bool)
  | .ret _ => none
  | .read l _ => some (l, false)
  | .write l _ _ => some (l, true)

/-- A data race: two goroutines are about to access the same place, and at least one of them writes. -/
def Pool.Races (s : Pool T α) (t t' : T) : Prop :=
  t ≠ t' ∧ ∃ l w w', (s.prog t).next = some (l, w) ∧ (s.prog t').next = some (l, w') ∧ (w = true ∨ w' = true)

end Cardano.TxThreads
