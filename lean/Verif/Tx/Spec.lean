import Verif.Tx.Model
import Verif.Cbor.Spec
/-!
# Specification vocabulary for transactions

The transaction as a data item (the CDDL of the ledger, restricted to the fields the package supports). Nothing here
mentions the encoder.
-/
set_option autoImplicit false

namespace Cardano.TxSpec
open Cbor

/-- `transaction_input = [transaction_id, index]`. -/
def inputItem (i : TxInput) : Item := .array [.bytes i.txHash, .uint i.index.toNat]

/-- The item the package writes for an address: the byte string of its binary form; a Byron address is written as its own
two-element array (so *not* as a byte string: see C30). -/
def addressItem : Address → Item
  | .byron b => .array [.tag 24 (.bytes (Byron.rawBytes b)), .uint (Crc32.checksum (Byron.rawBytes b)).toNat]
  | a => .bytes (Addr.bytes a)

/-- `transaction_output = [address, amount]`. -/
def outputItem (o : TxOutput) : Item := .array [addressItem o.address, .uint o.amount.toNat]

/-- `transaction_body`: keys 0, 1, 2 always, 3 iff a time to live is set, 7 iff there is an auxiliary data hash. -/
def bodyItem (b : TxBody) : Item :=
  .map ([.uint 0, .array (b.inputs.map inputItem), .uint 1, .array (b.outputs.map outputItem), .uint 2, .uint b.fee.toNat] ++
    (if b.ttl = 0 then [] else [.uint 3, .uint b.ttl.toNat]) ++
    (if b.auxHash = [] then [] else [.uint 7, .bytes b.auxHash]))

/-- `transaction_witness_set`: key 0 iff there are key witnesses. -/
def witnessItem (ws : List VKeyWitness) : Item :=
  .map (if ws = [] then [] else [.uint 0, .array (ws.map fun w => .array [.bytes w.vkey, .bytes w.signature])])

/-- `transaction = [transaction_body, transaction_witness_set, bool, auxiliary_data / nil]`. -/
def txItem (b : TxBody) (ws : List VKeyWitness) (valid : Bool) (md : Item) : Item :=
  .array [bodyItem b, witnessItem ws, .simple (if valid then 21 else 20), md]

/-- Lengths are Go lengths. -/
def AddressFits : Address → Prop
  | .byron b => b.hash.length < 2 ^ 62 ∧ b.attributes.payload.length < 2 ^ 62
  | a => (Addr.bytes a).length < 2 ^ 63

/-- Every slice in the body has a length that fits Go's `int`. -/
structure BodyFits (b : TxBody) : Prop where
  inputs : b.inputs.length < 2 ^ 63
  outputs : b.outputs.length < 2 ^ 63
  hashes : ∀ i ∈ b.inputs, i.txHash.length < 2 ^ 63
  addrs : ∀ o ∈ b.outputs, AddressFits o.address
  aux : b.auxHash.length < 2 ^ 63

/-- The same for witnesses. -/
structure WitnessFits (ws : List VKeyWitness) : Prop where
  count : ws.length < 2 ^ 63
  each : ∀ w ∈ ws, w.vkey.length < 2 ^ 63 ∧ w.signature.length < 2 ^ 63

/-- Exact sum of the input amounts. -/
def sumIn (l : List TxInput) : Nat := (l.map fun i => i.amount.toNat).sum
/-- Exact sum of the output amounts. -/
def sumOut (l : List TxOutput) : Nat := (l.map fun o => o.amount.toNat).sum

/-- The ledger's linear fee for a transaction of `n` bytes, in unbounded arithmetic. -/
def linearFee (p : Protocol) (n : Nat) : Nat := p.txFeeFixed.toNat + p.txFeePerByte.toNat * n

/-- The metadata is encoded the same way by every call of the encoder. -/
def Deterministic (m : Option Metadata) : Prop := ∀ md, m = some md → ∀ i j, md.enc i = md.enc j

end Cardano.TxSpec
