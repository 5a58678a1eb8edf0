import Verif.Tx.Builder
/-!
# Transactions made by hand

The functions of `tx.Tx` and `tx.TxBody` used without the builder, and the programs a caller makes of them. A `*Tx` is held by one caller, so that it can be seen as a value; the
state of a program is that value and the number of metadata encoder calls so far.
-/
set_option autoImplicit false

namespace Cardano.ByHand
open Cbor Transaction TxBuilder

/-- tx.go:21-27 `NewTx`, tx_body.go:19-24 `NewTxBody`. -/
def NewTx : Tx := ⟨⟨[], [], 0, 0, []⟩, [], true, none⟩

/-- tx.go:96-100 `AddInputs`. -/
def AddInputs (t : Tx) (l : List TxInput) : Tx := { t with body := { t.body with inputs := t.body.inputs ++ l } }

/-- tx.go:103-107 `AddOutputs`. -/
def AddOutputs (t : Tx) (l : List TxOutput) : Tx := { t with body := { t.body with outputs := t.body.outputs ++ l } }

/-- tx.go:79-81 `SetFee` (`uint` is 64 bits). -/
def SetFee (t : Tx) (fee : UInt64) : Tx := { t with body := { t.body with fee := fee } }

/-- Not a function of the package: the caller writes `t.Body.TTL = ttl`. -/
def setTTL (t : Tx) (ttl : UInt32) : Tx := { t with body := { t.body with ttl := ttl } }

/-- Not a function of the package: the caller writes `t.Metadata = m`. -/
def setMetadata (t : Tx) (m : Option Metadata) : Tx := { t with metadata := m }

/-- tx_witness_set.go:28-32 `NewVKeyWitness` (keeps the slices it is given). -/
def NewVKeyWitness (vkey signature : Bytes) : VKeyWitness := ⟨vkey, signature⟩

/-- tx_witness_set.go:8-18 `NewTXWitness`: without arguments an empty slice, which is encoded like no slice. -/
def NewTXWitness (keys : List VKeyWitness) : List VKeyWitness := if keys.length = 0 then [] else keys

/-- Not a function of the package: the caller writes `t.Witness = tx.NewTXWitness(ws...)`. -/
def setWitness (t : Tx) (ws : List VKeyWitness) : Tx := { t with witness := NewTXWitness ws }

/-- tx_body.go:27-30 `Bytes` of a body. -/
def bodyBytes (b : TxBody) : Res Bytes := marshalBody b

/-- tx_body.go:33-39 `Hex` of a body. -/
def bodyHex (b : TxBody) : Res Bytes := do
  let by' ← bodyBytes b
  return Hex.encode by'

variable (C : Crypto)

/-- A caller's program: `f, err := t.Fee(l)`, give up on error, `t.SetFee(f)`. `k` is the number of encoder calls so far. -/
def feePass (l : LinearFee) (t : Tx) (k : Nat) : Res (Tx × Nat) := do
  let f ← fee C l t k
  return (SetFee (afterAux C t k) f, k + 2)

/-- The same, several times over. -/
def feeLoop (l : LinearFee) : Nat → Tx → Nat → Res (Tx × Nat)
  | 0, t, k => .ok (t, k)
  | n + 1, t, k => do
    let r ← feePass C l t k
    feeLoop l n r.1 r.2

/-- A caller's program: `h, err := t.Hash()`, then `t.Witness = NewTXWitness(NewVKeyWitness(prv.Public().PublicKey(), prv.Sign(h[:])), ...)` with one witness for each key. -/
def signWith (keys : List Bytes) (t : Tx) (k : Nat) : Res (Tx × Nat) := do
  let h ← hash C t k
  let ws ← witnessesOf C h keys
  return (setWitness (afterAux C t k) ws, k + 1)

/-- What the caller of `pay` wants. -/
structure Payment where
  fees : LinearFee
  keys : List Bytes
  inputs : List TxInput
  outputs : List TxOutput
  change : Address
  ttl : UInt32
  metadata : Option Metadata

/-- The transaction for which the fee is found: everything that is left goes to the change, and there is a placeholder witness for each key. Inputs and outputs are added in
two calls each. -/
def Payment.draft (p : Payment) : Tx :=
  setWitness (setMetadata (setTTL (AddOutputs (AddOutputs (AddInputs (AddInputs NewTx (p.inputs.take 1)) (p.inputs.drop 1)) p.outputs)
      [⟨p.change, totalIn p.inputs - totalOut p.outputs⟩]) p.ttl) p.metadata)
    (p.keys.map fun _ => NewVKeyWitness (List.replicate 32 0) (List.replicate 64 0))

/-- A caller's program: find the fee with five passes over the draft, take it from the change, sign, serialise. -/
def pay (p : Payment) : Res Bytes := do
  let (t, k) ← feeLoop C p.fees 5 p.draft 0
  let t := { t with body := { t.body with outputs := p.outputs ++ [⟨p.change, totalIn p.inputs - totalOut p.outputs - t.body.fee⟩] } }
  let (t, k) ← signWith C p.keys t k
  Transaction.bytes C t k

/-- README.md:25-64, with the names the package has now (`AddInputs`, `NewTxInput`, `NewTxOutput`; the time to live is written to the body) and the fee, amounts and time to
live of the text: the value printed. -/
def readme (hash : Bytes) (index : UInt16) (receiver : Address) : Res Bytes :=
  Transaction.hex C (setTTL (SetFee (AddOutputs (AddInputs NewTx [NewTxInput hash index 10000000]) [⟨receiver, 5000000⟩]) 170000) 505050505) 0

end Cardano.ByHand
