import Verif.Address.Model
/-!
# Model of `tx/*.go` and `fees/linear.go`

Conventions.

* `uint` is 64 bits. Pointers inside the input, output and witness slices are non-nil, byte slices are non-nil (a nil
  `TxHash` would be encoded as null); neither can arise through the constructors `NewTxInput`, `NewTxOutput`,
  `NewVKeyWitness`, `NewTx`, `NewTxBuilder`.
* `TxInput` and `TxOutput` objects are values: no function of the package writes to their fields after construction.
* `cbor.Marshal` of the metadata (an arbitrary `interface{}`) is an oracle: the result may differ from one call to the
  next, because the encoder writes the entries of Go maps in random order. Encoder calls are numbered; a function that
  marshals metadata takes the number of its first call.
* `blake2b.Sum256`, the public key and the signature of a private key are parameters (`Crypto`).
-/
set_option autoImplicit false

namespace Cardano
open Cbor

/-- tx_input_output.go:10-16 `TxInput`. -/
structure TxInput where
  txHash : Bytes
  index : UInt16
  amount : UInt64
  deriving DecidableEq, Repr

/-- tx_input_output.go:42-46 `TxOutput`. -/
structure TxOutput where
  address : Address
  amount : UInt64
  deriving DecidableEq, Repr

/-- tx_witness_set.go:21-25 `VKeyWitness`. -/
structure VKeyWitness where
  vkey : Bytes
  signature : Bytes
  deriving DecidableEq, Repr

/-- tx_body.go:10-16 `TxBody`. -/
structure TxBody where
  inputs : List TxInput
  outputs : List TxOutput
  fee : UInt64
  ttl : UInt32
  auxHash : Bytes
  deriving DecidableEq, Repr

/-- A metadata value, seen through `cbor.Marshal`: the result of encoder call number `k`. -/
structure Metadata where
  enc : Nat → Res Bytes

/-- tx.go:12-18 `Tx` with the structures it points to. -/
structure Tx where
  body : TxBody
  witness : List VKeyWitness
  valid : Bool
  metadata : Option Metadata

/-- fees/linear.go:5-8 `LinearFee`; `NewLinearFee` (linear.go:11-16) is its constructor. -/
structure LinearFee where
  txFeePerByte : UInt64
  txFeeFixed : UInt64
  deriving DecidableEq, Repr

/-- protocol/protocol.go:14-30 `Protocol` (the version numbers are not used by the package). -/
structure Protocol where
  txFeePerByte : UInt64
  txFeeFixed : UInt64
  maxTxSize : UInt64
  minUTXOValue : UInt64
  deriving DecidableEq, Repr

/-- What the package needs from cryptography: `blake2b.Sum256`, `prv.Public().PublicKey()` and `prv.Sign(msg)` (the last two
panic when the key slice is too short). -/
structure Crypto where
  blake256 : Bytes → Bytes
  publicKey : Bytes → Res Bytes
  sign : Bytes → Bytes → Res Bytes

namespace Transaction

/-- tx_input_output.go:19-27 `NewTxInput`: `hash, _ := hex.DecodeString(txHash)`. -/
def NewTxInput (txHash : Bytes) (txIx : UInt16) (amount : UInt64) : TxInput :=
  ⟨(Hex.decode txHash).1, txIx, amount⟩

/-- tx_input_output.go:29-40 `MarshalCBOR` of an input. -/
def marshalInput (i : TxInput) : Bytes :=
  encArray [encBytes i.txHash, encUint (UInt64.ofNat i.index.toNat)]

/-- `MarshalCBOR` of the address types: base.go:48-50, enterprise.go:44-46, pointer.go:60-62, byron.go:48-57. reward.go:32-34
calls `cbor.Marshal(r.Bytes)` on the *method value*, and functions cannot be encoded. -/
def marshalAddress (a : Address) : Res Bytes :=
  match a with
  | .base _ _ _ => .ok (encBytes (Addr.bytes a))
  | .enterprise _ _ => .ok (encBytes (Addr.bytes a))
  | .pointer _ _ _ => .ok (encBytes (Addr.bytes a))
  | .reward _ _ => .err "cbor: unsupported type: func() []uint8"
  | .byron b => .ok (Byron.bytes b)

/-- `cbor.Marshal` of a `TxOutput` (a `toarray` struct, tx_input_output.go:42-46). -/
def marshalOutput (o : TxOutput) : Res Bytes := do
  let a ← marshalAddress o.address
  return encArray [a, encUint o.amount]

/-- Encoding the elements of a slice in order, stopping at the first error. -/
def collect : List (Res Bytes) → Res (List Bytes)
  | [] => .ok []
  | x :: xs => do
    let b ← x
    let bs ← collect xs
    return b :: bs

/-- `cbor.Marshal` of a `TxBody` (tx_body.go:10-16, `keyasint`; `omitempty` on keys 3 and 7). -/
def marshalBody (b : TxBody) : Res Bytes := do
  let outs ← collect (b.outputs.map marshalOutput)
  return encMap ([(encUint 0, encArray (b.inputs.map marshalInput)), (encUint 1, encArray outs), (encUint 2, encUint b.fee)] ++
    (if b.ttl = 0 then [] else [(encUint 3, encUint (UInt64.ofNat b.ttl.toNat))]) ++
    (if b.auxHash.length = 0 then [] else [(encUint 7, encBytes b.auxHash)]))

/-- `cbor.Marshal` of a `VKeyWitness`. -/
def marshalVKey (w : VKeyWitness) : Bytes := encArray [encBytes w.vkey, encBytes w.signature]

/-- `cbor.Marshal` of a `Witness` (tx_witness_set.go:3-5, `omitempty`). -/
def marshalWitness (ws : List VKeyWitness) : Bytes :=
  encMap (if ws.length = 0 then [] else [(encUint 0, encArray (ws.map marshalVKey))])

/-- `cbor.Marshal` of the metadata field, encoder call `k`. -/
def marshalMetadata (m : Option Metadata) (k : Nat) : Res Bytes :=
  match m with
  | none => .ok encNil
  | some m => m.enc k

/-- `cbor.Marshal(t)` for `t *Tx`, a `toarray` struct (tx.go:12-18); the metadata encoder call is number `k`. -/
def marshalTx (t : Tx) (k : Nat) : Res Bytes := do
  let b ← marshalBody t.body
  let m ← marshalMetadata t.metadata k
  return encArray [b, marshalWitness t.witness, encBool t.valid, m]

variable (C : Crypto)

/-- tx.go:83-93 `CalculateAuxiliaryDataHash` (encoder call `k`): the new body. -/
def calcAux (t : Tx) (k : Nat) : Res TxBody :=
  match t.metadata with
  | none => .ok t.body
  | some m =>
    match m.enc k with
    | .ok mdBytes => .ok { t.body with auxHash := C.blake256 mdBytes }
    | .err _ => .err "cannot serialize metadata"
    | .panic => .panic

/-- The transaction after a call to `CalculateAuxiliaryDataHash`, also when that fails. -/
def afterAux (t : Tx) (k : Nat) : Tx :=
  match calcAux C t k with
  | .ok b => { t with body := b }
  | _ => t

/-- tx.go:30-36 `Bytes` (encoder calls `k` and `k+1`). The receiver becomes `afterAux t k`. -/
def bytes (t : Tx) (k : Nat) : Res Bytes := do
  let b ← calcAux C t k
  marshalTx { t with body := b } (k + 1)

/-- tx.go:39-45 `Hex`. -/
def hex (t : Tx) (k : Nat) : Res Bytes := do
  let b ← bytes C t k
  return Hex.encode b

/-- tx.go:48-60 `Hash` (encoder call `k`). The receiver becomes `afterAux t k`. -/
def hash (t : Tx) (k : Nat) : Res Bytes := do
  let b ← calcAux C t k
  let txBody ← marshalBody b
  return C.blake256 txBody

/-- tx.go:64-76 `Fee` (encoder calls `k` and `k+1`). The receiver becomes `afterAux t k`. -/
def fee (l : LinearFee) (t : Tx) (k : Nat) : Res UInt64 := do
  let b ← calcAux C t k
  let txCbor ← marshalTx { t with body := b } (k + 1)
  return l.txFeeFixed + l.txFeePerByte * UInt64.ofNat txCbor.length

/-- `fee, _ = ...`: the value, zero on error. -/
def orZero : Res UInt64 → UInt64
  | .ok n => n
  | _ => 0

/-- tx_builder.go:69-78 `getTotalInputOutputs`. -/
def totalIn (ins : List TxInput) : UInt64 := ins.foldl (fun a i => a + i.amount) 0
/-- tx_builder.go:69-78 `getTotalInputOutputs`. -/
def totalOut (outs : List TxOutput) : UInt64 := outs.foldl (fun a o => a + o.amount) 0

end Transaction

/-! ## The builder

`NewTxBuilder` allocates one `Tx` with one `TxBody`; every `Tx` value obtained from the builder (`Build` returns a copy
of the struct, `Tx()` the pointer) points to that same `TxBody`. `Witness` objects are allocated by `NewTx` and by each
`Build`; the model keeps all of them, a pointer is an index.
-/

/-- tx_builder.go:11-15 `TxBuilder` together with the memory reachable from it. -/
structure Builder where
  /-- the single `TxBody` -/
  body : TxBody
  /-- all `Witness` objects allocated so far -/
  wits : List (List VKeyWitness)
  /-- `tb.tx.Witness`, an index into `wits` -/
  wit : Nat
  /-- `tb.tx.Valid` -/
  valid : Bool
  /-- `tb.tx.Metadata` -/
  metadata : Option Metadata
  xprvs : List Bytes
  protocol : Protocol
  /-- number of metadata encoder calls so far -/
  clock : Nat

/-- A `Tx` value returned by `Build`: a copy of the struct; the body pointer is always the one of the builder. -/
structure Handle where
  wit : Nat
  valid : Bool
  metadata : Option Metadata

namespace TxBuilder
open Transaction

variable (C : Crypto)

/-- tx_builder.go:130-136 `NewTxBuilder`, tx.go:21-27 `NewTx`, tx_body.go:19-24, tx_witness_set.go:8-13. -/
def NewTxBuilder (p : Protocol) (xprvs : List Bytes) : Builder :=
  ⟨⟨[], [], 0, 0, []⟩, [[]], 0, true, none, xprvs, p, 0⟩

/-- The witness object behind a pointer. -/
def witAt (b : Builder) (i : Nat) : List VKeyWitness := b.wits.getD i []

/-- The transaction seen through a `Tx` value returned by `Build`. -/
def view (b : Builder) (h : Handle) : Tx := ⟨b.body, witAt b h.wit, h.valid, h.metadata⟩

/-- The transaction seen through `Tx()` (tx_builder.go:46-48). -/
def tx (b : Builder) : Tx := ⟨b.body, witAt b b.wit, b.valid, b.metadata⟩

/-- tx_builder.go:18-20 `Sign`. (Append to a slice that may share its array with the caller: see `Tx/Alias.lean`.) -/
def Sign (b : Builder) (xprv : Bytes) : Builder := { b with xprvs := b.xprvs ++ [xprv] }

/-- tx_builder.go:65-67 `SetTTL`. -/
def SetTTL (b : Builder) (ttl : UInt32) : Builder := { b with body := { b.body with ttl := ttl } }

/-- tx_builder.go:119-121, tx.go:96-100 `AddInputs`. -/
def AddInputs (b : Builder) (l : List TxInput) : Builder := { b with body := { b.body with inputs := b.body.inputs ++ l } }

/-- tx_builder.go:124-126, tx.go:103-107 `AddOutputs`. -/
def AddOutputs (b : Builder) (l : List TxOutput) : Builder := { b with body := { b.body with outputs := b.body.outputs ++ l } }

/-- tx.go:79-81 `SetFee`. -/
def SetFee (b : Builder) (fee : UInt64) : Builder := { b with body := { b.body with fee := fee } }

/-- Not a function of the package: the caller writes `tb.Tx().Metadata = m`. -/
def setMetadata (b : Builder) (m : Option Metadata) : Builder := { b with metadata := m }

/-- tx_builder.go:104, the literal. -/
def dummyAddrString : Bytes :=
  asc "addr_test1qqe6zztejhz5hq0xghlf72resflc4t2gmu9xjlf73x8dpf88d78zlt4rng3ccw8g5vvnkyrvt96mug06l5eskxh8rcjq2wyd63".toList

/-- tx_builder.go:104 `inner_addr, _ := address.NewAddress(...)`; C20's lemmas show that it parses. -/
def innerAddr : Address :=
  match Addr.NewAddress true dummyAddrString [] with
  | .ok a => a
  | _ => .reward ⟨0, 0⟩ ⟨0, []⟩

/-- tx_builder.go:94-97: the placeholder witness. -/
def dummyWitness : VKeyWitness := ⟨List.replicate 32 0, List.replicate 64 0⟩

/-- tx_builder.go:81-108: `feeTx` just before `lfee` is made; the metadata encoder call is number `k`. (The new body is not
shared; `CalculateAuxiliaryDataHash` errors are ignored.) -/
def feeTx (b : Builder) (k : Nat) : Tx :=
  let t0 : Tx := ⟨⟨b.body.inputs, b.body.outputs, b.body.fee, b.body.ttl, []⟩, witAt b b.wit, true, b.metadata⟩
  let t1 := afterAux C t0 k
  let t2 : Tx := if t1.witness.length = 0 then { t1 with witness := t1.witness ++ [dummyWitness] } else t1
  let totalI := totalIn b.body.inputs
  let totalO := totalOut b.body.outputs
  if totalI ≠ totalO then
    { t2 with body := { t2.body with outputs := t2.body.outputs ++ [⟨innerAddr, totalI - totalO - 200000⟩] } }
  else t2

/-- tx_builder.go:110-114: the two passes. -/
def feePasses (l : LinearFee) (t : Tx) (k : Nat) : UInt64 :=
  let fee1 := orZero (fee C l t k)
  let t' := afterAux C t k
  orZero (fee C l { t' with body := { t'.body with fee := fee1 } } (k + 2))

/-- tx_builder.go:81-117 `MinFee`: the result and the builder afterwards. `feeTx.Witness` is the pointer `tb.tx.Witness`, so
the placeholder witness appended in line 98 is written to the builder's own witness object. -/
def MinFee (b : Builder) : UInt64 × Builder :=
  (feePasses C ⟨b.protocol.txFeePerByte, b.protocol.txFeeFixed⟩ (feeTx C b b.clock) (b.clock + 1),
   { b with
     wits := if (witAt b b.wit).length = 0 then b.wits.set b.wit [dummyWitness] else b.wits
     clock := b.clock + 5 })

/-- tx_builder.go:50-62 `AddChangeIfNeeded`. -/
def AddChangeIfNeeded (b : Builder) (addr : Address) : Builder :=
  let (fee, b) := MinFee C b
  let b := SetFee b fee
  AddOutputs b [⟨addr, totalIn b.body.inputs - totalOut b.body.outputs - b.body.fee⟩]

/-- tx_builder.go:29-35, one iteration: `NewVKeyWitness(prv.Public().PublicKey(), prv.Sign(hash[:]))`. -/
def witnessOf (h : Bytes) (prv : Bytes) : Res VKeyWitness := do
  let pk ← C.publicKey prv
  let sig ← C.sign prv h
  return ⟨pk, sig⟩

/-- tx_builder.go:29-35, the loop. -/
def witnessesOf (h : Bytes) : List Bytes → Res (List VKeyWitness)
  | [] => .ok []
  | prv :: rest => do
    let w ← witnessOf C h prv
    let ws ← witnessesOf h rest
    return w :: ws

/-- tx_builder.go:23-42 `Build`: the result and the builder afterwards. -/
def Build (b : Builder) : Res Handle × Builder :=
  let b1 := { b with body := (afterAux C (tx b) b.clock).body, clock := b.clock + 1 }
  match hash C (tx b) b.clock with
  | .err m => (.err m, b1)
  | .panic => (.panic, b1)
  | .ok h =>
    match witnessesOf C h b1.xprvs with
    | .err m => (.err m, b1)
    | .panic => (.panic, b1)
    | .ok ws =>
      let b2 := { b1 with wits := b1.wits ++ [ws], wit := b1.wits.length }
      (.ok ⟨b2.wit, b2.valid, b2.metadata⟩, b2)

/-- `Bytes()` (or `Hex()`, `Fee()`) called on a `Tx` obtained from the builder: result, and builder afterwards - the auxiliary
data hash is written to the shared body. -/
def bytesOf (b : Builder) (h : Handle) : Res Bytes × Builder :=
  (Transaction.bytes C (view b h) b.clock, { b with body := (afterAux C (view b h) b.clock).body, clock := b.clock + 2 })

end TxBuilder
end Cardano
