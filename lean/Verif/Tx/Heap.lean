import Verif.Tx.Ops
/-!
# Builders with the memory they share

In `Tx/Model.lean` the inputs and outputs of a transaction are lists of values. In Go they are slices of pointers: several builders and the caller may hold the same
`TxInput` and `TxOutput` objects, and `append` writes into the array behind a slice if there is room. This file models objects, pointers, slices and arrays.
-/
set_option autoImplicit false

namespace Cardano.TxHeap
open Transaction TxBuilder

/-- A Go slice of pointers: the number of its backing array, where it starts at the beginning, and its length. -/
structure Slice where
  arr : Nat
  len : Nat

/-- The memory: all `TxInput` and `TxOutput` objects, and the arrays behind slices. A pointer is an index. -/
structure Store where
  ins : List TxInput
  outs : List TxOutput
  arrays : List (List Nat)

/-- The pointers in a slice. -/
def Store.read (st : Store) (s : Slice) : List Nat := (st.arrays.getD s.arr []).take s.len

/-- Go's `append(s, ps...)`: in place if the array has room, otherwise in a new array, where the runtime chooses how much room to add. -/
def Store.append (st : Store) (s : Slice) (ps : List Nat) (spare : Nat) : Store × Slice :=
  let a := st.arrays.getD s.arr []
  if s.len + ps.length ≤ a.length then
    ({ st with arrays := st.arrays.set s.arr (a.take s.len ++ ps ++ a.drop (s.len + ps.length)) }, ⟨s.arr, s.len + ps.length⟩)
  else ({ st with arrays := st.arrays ++ [a.take s.len ++ ps ++ List.replicate spare 0] }, ⟨st.arrays.length, s.len + ps.length⟩)

/-- tx_body.go:10-16 `TxBody` with its pointers. -/
structure PBody where
  inputs : Slice
  outputs : Slice
  fee : UInt64
  ttl : UInt32
  auxHash : Bytes

/-- `Builder` of `Tx/Model.lean`, with pointers. -/
structure PBuilder where
  body : PBody
  wits : List (List VKeyWitness)
  wit : Nat
  valid : Bool
  metadata : Option Metadata
  xprvs : List Bytes
  protocol : Protocol
  clock : Nat

/-- The object behind a pointer to an input. -/
def Store.input (st : Store) (p : Nat) : TxInput := st.ins.getD p ⟨[], 0, 0⟩

/-- The object behind a pointer to an output. -/
def Store.output (st : Store) (p : Nat) : TxOutput := st.outs.getD p ⟨.reward ⟨0, 0⟩ ⟨0, []⟩, 0⟩

/-- What a reader of a slice of inputs sees. -/
def Store.inputs (st : Store) (s : Slice) : List TxInput := (st.read s).map st.input

/-- What a reader of a slice of outputs sees. -/
def Store.outputs (st : Store) (s : Slice) : List TxOutput := (st.read s).map st.output

/-- What a reader of a body sees. -/
def Store.body (st : Store) (b : PBody) : TxBody := ⟨st.inputs b.inputs, st.outputs b.outputs, b.fee, b.ttl, b.auxHash⟩

/-- What a reader of a builder sees. -/
def Store.deref (st : Store) (b : PBuilder) : Builder := ⟨st.body b.body, b.wits, b.wit, b.valid, b.metadata, b.xprvs, b.protocol, b.clock⟩

/-- tx_input_output.go:19-27 `NewTxInput` (its result): a new object. -/
def Store.newInput (st : Store) (i : TxInput) : Store × Nat := ({ st with ins := st.ins ++ [i] }, st.ins.length)

/-- tx_input_output.go:48-53 `NewTxOutput`: a new object. -/
def Store.newOutput (st : Store) (o : TxOutput) : Store × Nat := ({ st with outs := st.outs ++ [o] }, st.outs.length)

/-- tx_builder.go:130-136 `NewTxBuilder`, tx_body.go:19-24 `NewTxBody`: two empty arrays. -/
def newBuilder (st : Store) (p : Protocol) (ks : List Bytes) : Store × PBuilder :=
  ({ st with arrays := st.arrays ++ [[], []] }, ⟨⟨⟨st.arrays.length, 0⟩, ⟨st.arrays.length + 1, 0⟩, 0, 0, []⟩, [[]], 0, true, none, ks, p, 0⟩)

/-- tx_builder.go:119-121, tx.go:96-100 `AddInputs`. -/
def addInputs (st : Store) (b : PBuilder) (ps : List Nat) (spare : Nat) : Store × PBuilder :=
  let (st, s) := st.append b.body.inputs ps spare
  (st, { b with body := { b.body with inputs := s } })

/-- tx_builder.go:124-126, tx.go:103-107 `AddOutputs`. -/
def addOutputs (st : Store) (b : PBuilder) (ps : List Nat) (spare : Nat) : Store × PBuilder :=
  let (st, s) := st.append b.body.outputs ps spare
  (st, { b with body := { b.body with outputs := s } })

variable (C : Crypto)

/-- tx_builder.go:81-117 `MinFee`. The slices of `feeTx` are those of the builder; line 107 makes a new output and appends its address, possibly in the array of the builder, behind the end
of the builder's slice. -/
def minFee (st : Store) (b : PBuilder) (spare : Nat) : UInt64 × Store × PBuilder :=
  let ws := b.wits.getD b.wit []
  let t0 : Tx := ⟨st.body { b.body with auxHash := [] }, ws, true, b.metadata⟩
  let aux := (afterAux C t0 b.clock).body.auxHash
  let ws' := if ws.length = 0 then ws ++ [dummyWitness] else ws
  let totalI := totalIn (st.inputs b.body.inputs)
  let totalO := totalOut (st.outputs b.body.outputs)
  let (st', outs) := if totalI ≠ totalO then
      let (st1, p) := st.newOutput ⟨innerAddr, totalI - totalO - 200000⟩
      st1.append b.body.outputs [p] spare
    else (st, b.body.outputs)
  let feeTx : Tx := ⟨st'.body { b.body with outputs := outs, auxHash := aux }, ws', true, b.metadata⟩
  (feePasses C ⟨b.protocol.txFeePerByte, b.protocol.txFeeFixed⟩ feeTx (b.clock + 1), st',
   { b with wits := if ws.length = 0 then b.wits.set b.wit [dummyWitness] else b.wits, clock := b.clock + 5 })

/-- tx_builder.go:50-62 `AddChangeIfNeeded`. -/
def addChange (st : Store) (b : PBuilder) (addr : Address) (spare spare' : Nat) : Store × PBuilder :=
  let (fee, st, b) := minFee C st b spare
  let b := { b with body := { b.body with fee := fee } }
  let change := totalIn (st.inputs b.body.inputs) - totalOut (st.outputs b.body.outputs) - b.body.fee
  let (st, p) := st.newOutput ⟨addr, change⟩
  addOutputs st b [p] spare'

/-- tx_builder.go:23-42 `Build`: reads the body through the pointers, writes the auxiliary data hash and a new witness object. -/
def build (st : Store) (b : PBuilder) : Res Handle × PBuilder :=
  let (r, b') := Build C (st.deref b)
  (r, { b with body := { b.body with auxHash := b'.body.auxHash }, wits := b'.wits, wit := b'.wit, clock := b'.clock })

/-- `Bytes`, `Hex` or `Fee` of a transaction obtained from the builder. -/
def bytesOf (st : Store) (b : PBuilder) (h : Handle) : Res Bytes × PBuilder :=
  let (r, b') := TxBuilder.bytesOf C (st.deref b) h
  (r, { b with body := { b.body with auxHash := b'.body.auxHash }, clock := b'.clock })

/-! ## Several builders -/

/-- Memory and builders. -/
structure World where
  store : Store
  builders : List PBuilder

/-- A call on a builder; `spare` is what the runtime chooses. -/
inductive Call where
  | addInputs (ps : List Nat) (spare : Nat)
  | addOutputs (ps : List Nat) (spare : Nat)
  | setTTL (ttl : UInt32)
  | sign (xprv : Bytes)
  | minFee (spare : Nat)
  | addChange (addr : Address) (spare spare' : Nat)
  | build
  | setMetadata (m : Option Metadata)
  | bytesOf (h : Handle)

/-- What the caller does: make an input, an output, a builder, call builder `i`, or write to an object (the fields are exported). -/
inductive Act where
  | newInput (i : TxInput)
  | newOutput (o : TxOutput)
  | newBuilder (p : Protocol) (ks : List Bytes)
  | call (i : Nat) (c : Call)
  | writeInput (p : Nat) (i : TxInput)
  | writeOutput (p : Nat) (o : TxOutput)

/-- One call on a builder. -/
def call (st : Store) (b : PBuilder) : Call → Store × PBuilder
  | .addInputs ps spare => addInputs st b ps spare
  | .addOutputs ps spare => addOutputs st b ps spare
  | .setTTL n => (st, { b with body := { b.body with ttl := n } })
  | .sign k => (st, { b with xprvs := b.xprvs ++ [k] })
  | .minFee spare => (minFee C st b spare).2
  | .addChange a spare spare' => addChange C st b a spare spare'
  | .build => (st, (build C st b).2)
  | .setMetadata m => (st, { b with metadata := m })
  | .bytesOf h => (st, (bytesOf C st b h).2)

/-- One act. -/
def act (w : World) : Act → World
  | .newInput i => { w with store := (w.store.newInput i).1 }
  | .newOutput o => { w with store := (w.store.newOutput o).1 }
  | .newBuilder p ks => ⟨(newBuilder w.store p ks).1, w.builders ++ [(newBuilder w.store p ks).2]⟩
  | .call i c =>
    match w.builders[i]? with
    | none => w
    | some b => ⟨(call C w.store b c).1, w.builders.set i (call C w.store b c).2⟩
  | .writeInput p i => { w with store := { w.store with ins := w.store.ins.set p i } }
  | .writeOutput p o => { w with store := { w.store with outs := w.store.outs.set p o } }

/-- A sequence of acts. -/
def acts (w : World) (l : List Act) : World := l.foldl (act C) w

end Cardano.TxHeap
