import Verif.Tx.Ops
/-!
# Outputs without an address

`TxOutput.Address` is an interface. When the error of `NewAddress` is ignored it is nil, and `NewTxOutput`, `AddOutputs`, `AddChangeIfNeeded`,
`MinFee` and `Build` take it. This is `Tx/Model.lean` again with outputs whose address may be missing; `agree` below: where no address is missing it is the same builder.
-/
set_option autoImplicit false

namespace Cardano.Missing
open Cbor

/-- address.go:57-153 `NewAddressFromBytes` with both results: the address (nil except in line 73, where it is the Byron address with what the decoder has stored in it, `left`), and
whether there is an error. -/
def NewAddressFromBytesBoth (strict : Bool) (data spare : Bytes) (left : ByronAddress) : Res (Option Address × Bool) :=
  match Addr.NewAddressFromBytes strict data spare with
  | .ok a => .ok (some a, false)
  | .err _ => if (data.headD 0 &&& 0xF0) >>> 4 = 8 then .ok (some (.byron left), true) else .ok (none, true)
  | .panic => .panic

/-- address.go:32-46 `NewAddress` with both results. -/
def NewAddressBoth (strict : Bool) (raw spare : Bytes) (left : ByronAddress) : Res (Option Address × Bool) :=
  if Addr.hasPrefix raw (asc ['a','d','d','r']) || Addr.hasPrefix raw (asc ['s','t','a','k','e']) then
    match Bech32.Decode raw with
    | .ok (_, data) => NewAddressFromBytesBoth strict data spare left
    | .err _ => .ok (none, true)
    | .panic => .panic
  else NewAddressFromBytesBoth strict (Base58.decode raw) spare left

/-- address.go:48-55 `NewAddressFromHex` with both results. -/
def NewAddressFromHexBoth (strict : Bool) (hexAddr spare : Bytes) (left : ByronAddress) : Res (Option Address × Bool) :=
  match Hex.decode hexAddr with
  | (_, some _) => .ok (none, true)
  | (data, none) => NewAddressFromBytesBoth strict data spare left

/-- tx_input_output.go:42-46 `TxOutput`; `none` is a nil interface. -/
structure Output where
  address : Option Address
  amount : UInt64

/-- tx_body.go:10-16 `TxBody`. -/
structure Body where
  inputs : List TxInput
  outputs : List Output
  fee : UInt64
  ttl : UInt32
  auxHash : Bytes

/-- tx.go:12-18 `Tx`. -/
structure Tx where
  body : Body
  witness : List VKeyWitness
  valid : Bool
  metadata : Option Metadata

/-- `cbor.Marshal` of the field `Address`: the encoder writes null for a nil interface. -/
def marshalAddress : Option Address → Res Bytes
  | none => .ok encNil
  | some a => Transaction.marshalAddress a

/-- `cbor.Marshal` of a `TxOutput` (a `toarray` struct, tx_input_output.go:42-46). -/
def marshalOutput (o : Output) : Res Bytes := do
  let a ← marshalAddress o.address
  return encArray [a, encUint o.amount]

/-- `cbor.Marshal` of a `TxBody` (tx_body.go:10-16). -/
def marshalBody (b : Body) : Res Bytes := do
  let outs ← Transaction.collect (b.outputs.map marshalOutput)
  return encMap ([(encUint 0, encArray (b.inputs.map Transaction.marshalInput)), (encUint 1, encArray outs), (encUint 2, encUint b.fee)] ++
    (if b.ttl = 0 then [] else [(encUint 3, encUint (UInt64.ofNat b.ttl.toNat))]) ++
    (if b.auxHash.length = 0 then [] else [(encUint 7, encBytes b.auxHash)]))

/-- `cbor.Marshal(t)` (tx.go:12-18). -/
def marshalTx (t : Tx) (k : Nat) : Res Bytes := do
  let b ← marshalBody t.body
  let m ← Transaction.marshalMetadata t.metadata k
  return encArray [b, Transaction.marshalWitness t.witness, encBool t.valid, m]

variable (C : Crypto)

/-- tx.go:83-93 `CalculateAuxiliaryDataHash`. -/
def calcAux (t : Tx) (k : Nat) : Res Body :=
  match t.metadata with
  | none => .ok t.body
  | some m =>
    match m.enc k with
    | .ok mdBytes => .ok { t.body with auxHash := C.blake256 mdBytes }
    | .err _ => .err "cannot serialize metadata"
    | .panic => .panic

/-- The transaction after a call to `CalculateAuxiliaryDataHash`, also when that fails. -/
def afterAux (t : Tx) (k : Nat) : Tx :=
  match calcAux C t k with
  | .ok b => { t with body := b }
  | _ => t

/-- tx.go:30-36 `Bytes`. -/
def bytes (t : Tx) (k : Nat) : Res Bytes := do
  let b ← calcAux C t k
  marshalTx { t with body := b } (k + 1)

/-- tx.go:48-60 `Hash`. -/
def hash (t : Tx) (k : Nat) : Res Bytes := do
  let b ← calcAux C t k
  let txBody ← marshalBody b
  return C.blake256 txBody

/-- tx.go:64-76 `Fee`. -/
def fee (l : LinearFee) (t : Tx) (k : Nat) : Res UInt64 := do
  let b ← calcAux C t k
  let txCbor ← marshalTx { t with body := b } (k + 1)
  return l.txFeeFixed + l.txFeePerByte * UInt64.ofNat txCbor.length

/-- tx_builder.go:69-78 `getTotalInputOutputs`. -/
def totalOut (outs : List Output) : UInt64 := outs.foldl (fun a o => a + o.amount) 0

/-- tx_builder.go:11-15 `TxBuilder` together with the memory reachable from it. -/
structure Builder where
  body : Body
  wits : List (List VKeyWitness)
  wit : Nat
  valid : Bool
  metadata : Option Metadata
  xprvs : List Bytes
  protocol : Protocol
  clock : Nat

/-- tx_builder.go:130-136 `NewTxBuilder`. -/
def NewTxBuilder (p : Protocol) (xprvs : List Bytes) : Builder := ⟨⟨[], [], 0, 0, []⟩, [[]], 0, true, none, xprvs, p, 0⟩

/-- The witness object behind a pointer. -/
def witAt (b : Builder) (i : Nat) : List VKeyWitness := b.wits.getD i []

/-- The transaction seen through a `Tx` value returned by `Build`. -/
def view (b : Builder) (h : Handle) : Tx := ⟨b.body, witAt b h.wit, h.valid, h.metadata⟩

/-- tx_builder.go:45-47 `Tx()`. -/
def tx (b : Builder) : Tx := ⟨b.body, witAt b b.wit, b.valid, b.metadata⟩

/-- tx_builder.go:124-126, tx.go:103-107 `AddOutputs`. -/
def AddOutputs (b : Builder) (l : List Output) : Builder := { b with body := { b.body with outputs := b.body.outputs ++ l } }

/-- tx_builder.go:81-108: `feeTx` just before `lfee` is made. -/
def feeTx (b : Builder) (k : Nat) : Tx :=
  let t0 : Tx := ⟨⟨b.body.inputs, b.body.outputs, b.body.fee, b.body.ttl, []⟩, witAt b b.wit, true, b.metadata⟩
  let t1 := afterAux C t0 k
  let t2 : Tx := if t1.witness.length = 0 then { t1 with witness := t1.witness ++ [TxBuilder.dummyWitness] } else t1
  let totalI := Transaction.totalIn b.body.inputs
  let totalO := totalOut b.body.outputs
  if totalI ≠ totalO then
    { t2 with body := { t2.body with outputs := t2.body.outputs ++ [⟨some TxBuilder.innerAddr, totalI - totalO - 200000⟩] } }
  else t2

/-- tx_builder.go:110-114: the two passes. -/
def feePasses (l : LinearFee) (t : Tx) (k : Nat) : UInt64 :=
  let fee1 := Transaction.orZero (fee C l t k)
  let t' := afterAux C t k
  Transaction.orZero (fee C l { t' with body := { t'.body with fee := fee1 } } (k + 2))

/-- tx_builder.go:81-117 `MinFee`: the result and the builder afterwards. -/
def MinFee (b : Builder) : UInt64 × Builder :=
  (feePasses C ⟨b.protocol.txFeePerByte, b.protocol.txFeeFixed⟩ (feeTx C b b.clock) (b.clock + 1),
   { b with
     wits := if (witAt b b.wit).length = 0 then b.wits.set b.wit [TxBuilder.dummyWitness] else b.wits
     clock := b.clock + 5 })

/-- tx_builder.go:50-62 `AddChangeIfNeeded`. -/
def AddChangeIfNeeded (b : Builder) (addr : Option Address) : Builder :=
  let (fee, b) := MinFee C b
  let b := { b with body := { b.body with fee := fee } }
  AddOutputs b [⟨addr, Transaction.totalIn b.body.inputs - totalOut b.body.outputs - b.body.fee⟩]

/-- tx_builder.go:23-42 `Build`: the result and the builder afterwards. -/
def Build (b : Builder) : Res Handle × Builder :=
  let b1 := { b with body := (afterAux C (tx b) b.clock).body, clock := b.clock + 1 }
  match hash C (tx b) b.clock with
  | .err m => (.err m, b1)
  | .panic => (.panic, b1)
  | .ok h =>
    match TxBuilder.witnessesOf C h b1.xprvs with
    | .err m => (.err m, b1)
    | .panic => (.panic, b1)
    | .ok ws =>
      let b2 := { b1 with wits := b1.wits ++ [ws], wit := b1.wits.length }
      (.ok ⟨b2.wit, b2.valid, b2.metadata⟩, b2)

/-- `Bytes()` called on a `Tx` obtained from the builder. -/
def bytesOf (b : Builder) (h : Handle) : Res Bytes × Builder :=
  (bytes C (view b h) b.clock, { b with body := (afterAux C (view b h) b.clock).body, clock := b.clock + 2 })

/-- The calls of the builder, as in `Tx/Ops.lean`. -/
inductive Op where
  | addInputs (l : List TxInput)
  | addOutputs (l : List Output)
  | setTTL (ttl : UInt32)
  | sign (xprv : Bytes)
  | minFee
  | addChange (addr : Option Address)
  | build
  | setMetadata (m : Option Metadata)
  | bytesOf (h : Handle)

/-- The builder after one call (also a failing one): tx_builder.go:18-20, 65-67, 119-121 and the functions above. -/
def step (b : Builder) : Op → Builder
  | .addInputs l => { b with body := { b.body with inputs := b.body.inputs ++ l } }
  | .addOutputs l => AddOutputs b l
  | .setTTL n => { b with body := { b.body with ttl := n } }
  | .sign k => { b with xprvs := b.xprvs ++ [k] }
  | .minFee => (MinFee C b).2
  | .addChange a => AddChangeIfNeeded C b a
  | .build => (Build C b).2
  | .setMetadata m => { b with metadata := m }
  | .bytesOf h => (bytesOf C b h).2

/-- The builder after a sequence of calls. -/
def run (b : Builder) (ops : List Op) : Builder := ops.foldl (step C) b

/-! ### Where no address is missing -/

def Output.of (o : TxOutput) : Output := ⟨some o.address, o.amount⟩
def Body.of (b : TxBody) : Body := ⟨b.inputs, b.outputs.map Output.of, b.fee, b.ttl, b.auxHash⟩
def Tx.of (t : Cardano.Tx) : Tx := ⟨Body.of t.body, t.witness, t.valid, t.metadata⟩
def Builder.of (b : Cardano.Builder) : Builder := ⟨Body.of b.body, b.wits, b.wit, b.valid, b.metadata, b.xprvs, b.protocol, b.clock⟩

def Op.of : TxBuilder.Op → Op
  | .addInputs l => .addInputs l
  | .addOutputs l => .addOutputs (l.map Output.of)
  | .setTTL n => .setTTL n
  | .sign k => .sign k
  | .minFee => .minFee
  | .addChange a => .addChange (some a)
  | .build => .build
  | .setMetadata m => .setMetadata m
  | .bytesOf h => .bytesOf h

theorem marshalBody_of (b : TxBody) : marshalBody (Body.of b) = Transaction.marshalBody b := by
  unfold marshalBody Transaction.marshalBody Body.of
  simp only [List.map_map]
  rfl

theorem marshalTx_of (t : Cardano.Tx) (k : Nat) : marshalTx (Tx.of t) k = Transaction.marshalTx t k := by
  unfold marshalTx Transaction.marshalTx Tx.of
  simp only [marshalBody_of]

/-- `Res` mapped through a function. -/
def mapOk {α β : Type} (f : α → β) : Res α → Res β
  | .ok a => .ok (f a)
  | .err m => .err m
  | .panic => .panic

theorem calcAux_of (t : Cardano.Tx) (k : Nat) : calcAux C (Tx.of t) k = mapOk Body.of (Transaction.calcAux C t k) := by
  unfold calcAux Transaction.calcAux Tx.of
  cases t.metadata with
  | none => rfl
  | some m => dsimp only; cases m.enc k <;> rfl

theorem afterAux_of (t : Cardano.Tx) (k : Nat) : afterAux C (Tx.of t) k = Tx.of (Transaction.afterAux C t k) := by
  unfold afterAux Transaction.afterAux
  rw [calcAux_of]
  cases Transaction.calcAux C t k <;> rfl

theorem bytes_of (t : Cardano.Tx) (k : Nat) : bytes C (Tx.of t) k = Transaction.bytes C t k := by
  unfold bytes Transaction.bytes
  rw [calcAux_of]
  cases Transaction.calcAux C t k with
  | ok b => exact marshalTx_of { t with body := b } (k + 1)
  | _ => rfl

theorem hash_of (t : Cardano.Tx) (k : Nat) : hash C (Tx.of t) k = Transaction.hash C t k := by
  unfold hash Transaction.hash
  rw [calcAux_of]
  cases Transaction.calcAux C t k with
  | ok b => show (marshalBody (Body.of b) >>= _) = _; rw [marshalBody_of]; rfl
  | _ => rfl

theorem fee_of (l : LinearFee) (t : Cardano.Tx) (k : Nat) : fee C l (Tx.of t) k = Transaction.fee C l t k := by
  unfold fee Transaction.fee
  rw [calcAux_of]
  cases Transaction.calcAux C t k with
  | ok b =>
    show (marshalTx (Tx.of { t with body := b }) (k + 1) >>= _) = _
    rw [marshalTx_of]; rfl
  | _ => rfl

theorem totalOut_of (l : List TxOutput) : totalOut (l.map Output.of) = Transaction.totalOut l := by
  unfold totalOut Transaction.totalOut
  rw [List.foldl_map]
  rfl

theorem feeTx_of (b : Cardano.Builder) (k : Nat) : feeTx C (Builder.of b) k = Tx.of (TxBuilder.feeTx C b k) := by
  have h := afterAux_of C ⟨⟨b.body.inputs, b.body.outputs, b.body.fee, b.body.ttl, []⟩, TxBuilder.witAt b b.wit, true, b.metadata⟩ k
  unfold feeTx TxBuilder.feeTx
  dsimp only at h ⊢
  have e : (⟨⟨(Builder.of b).body.inputs, (Builder.of b).body.outputs, (Builder.of b).body.fee, (Builder.of b).body.ttl, []⟩, witAt (Builder.of b) (Builder.of b).wit, true,
      (Builder.of b).metadata⟩ : Tx) = Tx.of ⟨⟨b.body.inputs, b.body.outputs, b.body.fee, b.body.ttl, []⟩, TxBuilder.witAt b b.wit, true, b.metadata⟩ := rfl
  rw [e, h, show totalOut (Builder.of b).body.outputs = _ from totalOut_of b.body.outputs]
  generalize Transaction.afterAux C _ k = t1
  show (if Transaction.totalIn b.body.inputs ≠ Transaction.totalOut b.body.outputs then _ else _) = _
  by_cases c1 : t1.witness.length = 0
  · have c1' : (Tx.of t1).witness.length = 0 := c1
    rw [if_pos c1, if_pos c1']
    split
    · simp [Tx.of, Body.of, Output.of]; rfl
    · rfl
  · have c1' : ¬ (Tx.of t1).witness.length = 0 := c1
    rw [if_neg c1, if_neg c1']
    split
    · simp [Tx.of, Body.of, Output.of]; rfl
    · rfl

theorem feePasses_of (l : LinearFee) (t : Cardano.Tx) (k : Nat) : feePasses C l (Tx.of t) k = TxBuilder.feePasses C l t k := by
  unfold feePasses TxBuilder.feePasses
  dsimp only
  rw [fee_of, afterAux_of]
  congr 1
  exact fee_of C l { Transaction.afterAux C t k with body := { (Transaction.afterAux C t k).body with fee := Transaction.orZero (Transaction.fee C l t k) } } (k + 2)

theorem MinFee_of (b : Cardano.Builder) : MinFee C (Builder.of b) = ((TxBuilder.MinFee C b).1, Builder.of (TxBuilder.MinFee C b).2) := by
  unfold MinFee TxBuilder.MinFee
  have h := feePasses_of C ⟨b.protocol.txFeePerByte, b.protocol.txFeeFixed⟩ (TxBuilder.feeTx C b b.clock) (b.clock + 1)
  rw [← feeTx_of] at h
  exact Prod.ext h rfl

theorem AddOutputs_of (b : Cardano.Builder) (l : List TxOutput) : AddOutputs (Builder.of b) (l.map Output.of) = Builder.of (TxBuilder.AddOutputs b l) := by
  simp [AddOutputs, TxBuilder.AddOutputs, Builder.of, Body.of]

theorem AddChangeIfNeeded_of (b : Cardano.Builder) (a : Address) :
    AddChangeIfNeeded C (Builder.of b) (some a) = Builder.of (TxBuilder.AddChangeIfNeeded C b a) := by
  unfold AddChangeIfNeeded TxBuilder.AddChangeIfNeeded
  rw [MinFee_of]
  dsimp only
  rw [← AddOutputs_of]
  show AddOutputs _ [⟨some a, _ - totalOut (List.map Output.of _) - _⟩] = _
  rw [totalOut_of]
  rfl

theorem Build_of (b : Cardano.Builder) : Build C (Builder.of b) = ((TxBuilder.Build C b).1, Builder.of (TxBuilder.Build C b).2) := by
  unfold Build TxBuilder.Build
  have h1 : hash C (tx (Builder.of b)) (Builder.of b).clock = Transaction.hash C (TxBuilder.tx b) b.clock := hash_of C (TxBuilder.tx b) b.clock
  have h2 : (afterAux C (tx (Builder.of b)) (Builder.of b).clock).body = Body.of (Transaction.afterAux C (TxBuilder.tx b) b.clock).body :=
    congrArg Tx.body (afterAux_of C (TxBuilder.tx b) b.clock)
  rw [h1, h2]
  dsimp only
  cases Transaction.hash C (TxBuilder.tx b) b.clock with
  | err m => rfl
  | panic => rfl
  | ok h =>
    show (match TxBuilder.witnessesOf C h b.xprvs with | .err m => _ | .panic => _ | .ok ws => _) = _
    dsimp only
    cases TxBuilder.witnessesOf C h b.xprvs <;> rfl

theorem bytesOf_of (b : Cardano.Builder) (h : Handle) : bytesOf C (Builder.of b) h = ((TxBuilder.bytesOf C b h).1, Builder.of (TxBuilder.bytesOf C b h).2) := by
  have h1 : bytes C (view (Builder.of b) h) b.clock = _ := bytes_of C (TxBuilder.view b h) b.clock
  have h2 : (afterAux C (view (Builder.of b) h) b.clock).body = _ := congrArg Tx.body (afterAux_of C (TxBuilder.view b h) b.clock)
  unfold bytesOf TxBuilder.bytesOf
  refine Prod.ext h1 ?_
  show (⟨_, _, _, _, _, _, _, _⟩ : Builder) = _
  rw [show (Builder.of b).clock = b.clock from rfl, h2]
  rfl

theorem step_of (b : Cardano.Builder) (op : TxBuilder.Op) : step C (Builder.of b) (Op.of op) = Builder.of (TxBuilder.step C b op) := by
  cases op with
  | addOutputs l => exact AddOutputs_of b l
  | minFee => exact congrArg Prod.snd (MinFee_of C b)
  | addChange a => exact AddChangeIfNeeded_of C b a
  | build => exact congrArg Prod.snd (Build_of C b)
  | bytesOf h => exact congrArg Prod.snd (bytesOf_of C b h)
  | _ => rfl

/-- With addresses everywhere this is the builder of `Tx/Model.lean`. -/
theorem agree (p : Protocol) (ks : List Bytes) (ops : List TxBuilder.Op) :
    run C (NewTxBuilder p ks) (ops.map Op.of) = Builder.of (TxBuilder.run C (TxBuilder.NewTxBuilder p ks) ops) := by
  suffices this : ∀ b, run C (Builder.of b) (ops.map Op.of) = Builder.of (TxBuilder.run C b ops) from this (TxBuilder.NewTxBuilder p ks)
  induction ops with
  | nil => exact fun _ => rfl
  | cons op ops ih =>
    intro b
    show run C (step C (Builder.of b) (Op.of op)) (ops.map Op.of) = _
    rw [step_of, ih]
    rfl

end Cardano.Missing
