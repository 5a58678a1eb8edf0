import Verif.Tx.Model
import Verif.Node.Model
/-!
# The amounts on machines where `uint` and `int` have 32 bits

Go's `uint` and `int` have 32 bits on some machines (`GOARCH=386`, `arm`, `mips`). `Verif.Tx.Model` and `Verif.Node.Model` have 64; here are the functions whose results
depend on it. The values themselves are kept in the same structures: an amount or parameter of type `uint` is a number below `2^32` there, and is read with
`toUInt32`. (`TxBody.Fee` is a `uint64` on all machines, and CBOR writes a `uint` like a `uint64`: tx_body.go:13, tx_input_output.go:15 and 45.)
-/
set_option autoImplicit false

namespace Cardano
namespace Transaction
variable (C : Crypto)

/-- tx.go:64-76 `Fee` (encoder calls `k` and `k+1`), with `uint` of 32 bits. -/
def fee32 (l : LinearFee) (t : Tx) (k : Nat) : Res UInt32 := do
  let b ← calcAux C t k
  let txCbor ← marshalTx { t with body := b } (k + 1)
  return l.txFeeFixed.toUInt32 + l.txFeePerByte.toUInt32 * UInt32.ofNat txCbor.length

/-- `fee, _ = ...`: the value, zero on error. -/
def orZero32 : Res UInt32 → UInt32
  | .ok n => n
  | _ => 0

/-- tx_builder.go:69-78 `getTotalInputOutputs`, with `uint` of 32 bits. -/
def totalIn32 (ins : List TxInput) : UInt32 := ins.foldl (fun a i => a + i.amount.toUInt32) 0
/-- tx_builder.go:69-78 `getTotalInputOutputs`, with `uint` of 32 bits. -/
def totalOut32 (outs : List TxOutput) : UInt32 := outs.foldl (fun a o => a + o.amount.toUInt32) 0

end Transaction

namespace TxBuilder
open Transaction
variable (C : Crypto)

/-- tx_builder.go:81-108: `feeTx` just before `lfee` is made, with `uint` of 32 bits; the metadata encoder call is number `k`. -/
def feeTx32 (b : Builder) (k : Nat) : Tx :=
  let t0 : Tx := ⟨⟨b.body.inputs, b.body.outputs, b.body.fee, b.body.ttl, []⟩, witAt b b.wit, true, b.metadata⟩
  let t1 := afterAux C t0 k
  let t2 : Tx := if t1.witness.length = 0 then { t1 with witness := t1.witness ++ [dummyWitness] } else t1
  let totalI := totalIn32 b.body.inputs
  let totalO := totalOut32 b.body.outputs
  if totalI ≠ totalO then
    { t2 with body := { t2.body with outputs := t2.body.outputs ++ [⟨innerAddr, (totalI - totalO - 200000).toUInt64⟩] } }
  else t2

/-- tx_builder.go:110-114: the two passes, with `uint` of 32 bits (`feeTx.Body.Fee = uint64(fee)`). -/
def feePasses32 (l : LinearFee) (t : Tx) (k : Nat) : UInt32 :=
  let fee1 := orZero32 (fee32 C l t k)
  let t' := afterAux C t k
  orZero32 (fee32 C l { t' with body := { t'.body with fee := fee1.toUInt64 } } (k + 2))

/-- tx_builder.go:81-117 `MinFee`, with `uint` of 32 bits: the result and the builder afterwards. -/
def MinFee32 (b : Builder) : UInt32 × Builder :=
  (feePasses32 C ⟨b.protocol.txFeePerByte, b.protocol.txFeeFixed⟩ (feeTx32 C b b.clock) (b.clock + 1),
   { b with
     wits := if (witAt b b.wit).length = 0 then b.wits.set b.wit [dummyWitness] else b.wits
     clock := b.clock + 5 })

/-- tx_builder.go:50-62 `AddChangeIfNeeded`, with `uint` of 32 bits; `SetFee` (tx.go:79-81) stores `uint64(fee)`, and `uint(tb.tx.Body.Fee)` is its lower half. -/
def AddChangeIfNeeded32 (b : Builder) (addr : Address) : Builder :=
  let (fee, b) := MinFee32 C b
  let b := SetFee b fee.toUInt64
  AddOutputs b [⟨addr, (totalIn32 b.body.inputs - totalOut32 b.body.outputs - b.body.fee.toUInt32).toUInt64⟩]

end TxBuilder

namespace Node
open Transaction

/-- `strconv.Atoi` with 32-bit `int`. The path for short strings and the one through `ParseInt` give the same result; this is the latter. -/
def Atoi32 (s : Bytes) : Res Int :=
  match s with
  | [] => .err "invalid syntax"
  | c :: cs => do
    let un ← ParseUint 32 (if c = 45 ∨ c = 43 then cs else s)
    if c = 45 then
      if un > 2 ^ 31 then .err "value out of range" else return -un
    else if un ≥ 2 ^ 31 then .err "value out of range" else return un

/-- `uint(n)` of an `int`, both of 32 bits. -/
def toUint32 (n : Int) : UInt64 := (UInt32.ofInt n).toUInt64

/-- cardano-cli.go:71-88: one row, with `int` and `uint` of 32 bits. -/
def parseRow32 (row : Bytes) : Res TxInput := do
  let sec := fields row
  let txIx ← ParseUint 16 (← index sec 1)
  let amSec := fields (← index sec 2)
  let amount ← Atoi32 (← index amSec 0)
  return NewTxInput (← index sec 0) (UInt16.ofNat txIx) (toUint32 amount)

/-- cardano-cli.go:70-91, the loop, with `int` and `uint` of 32 bits. -/
def parseRows32 : List Bytes → Res (List TxInput)
  | [] => .ok []
  | row :: rows => do
    let i ← parseRow32 row
    let is ← parseRows32 rows
    return i :: is

/-- blockfrost.go:47-58, the inner loop, with the variable `amount`; `int` and `uint` of 32 bits. -/
def sumAmount32 : List Amount → UInt64 → Res UInt64
  | [], amount => .ok amount
  | am :: ams, amount =>
    if am.unit = lovelace then do
      let amountI ← Atoi32 am.quantity
      sumAmount32 ams (toUint32 amountI)
    else sumAmount32 ams amount

/-- blockfrost.go:46-60, the loop, with `int` and `uint` of 32 bits. -/
def convertUTXOs32 : List Utxo → Res (List TxInput)
  | [] => .ok []
  | u :: us => do
    let amount ← sumAmount32 u.amount 0
    let is ← convertUTXOs32 us
    return NewTxInput u.txHash (UInt16.ofInt u.outputIndex) amount :: is

/-- blockfrost.go:66-87 `ProtocolParameters` on the answer of the service, with `int` and `uint` of 32 bits. -/
def convertParams32 (p : EpochParameters) : Res FullProtocol := do
  let minU ← Atoi32 p.minUtxo
  return ⟨⟨toUint32 p.minFeeA, toUint32 p.minFeeB, toUint32 p.maxTxSize, toUint32 minU⟩, UInt8.ofInt p.protocolMajorVer, UInt8.ofInt p.protocolMinorVer⟩

end Node

namespace Byron
open Cbor

/-- byron.go:83-92 with `Tag uint` of 32 bits (byron.go:87): `cbor.Unmarshal(rawTag, &byron)` into the three-field `toarray` struct. -/
def decodeRaw32 (strict : Bool) (raw : Bytes) : Res ByronAddress :=
  match parseFirst raw with
  | none => .err "cbor: not well-formed"
  | some (x, rest) =>
    if strict ∧ rest ≠ [] then .err "cbor: extraneous data"
    else match stripTags x with
      | .array [h, a, t] => do
        let hash ← toBytes h
        let attrs ← toAttrs a
        let tag ← toUint (2 ^ 32 - 1) t
        return ⟨hash, attrs, UInt64.ofNat (tag.getD 0)⟩
      | .simple n => if n = 22 ∨ n = 23 then .ok ⟨[], ⟨[], none⟩, 0⟩ else .err "cbor: cannot unmarshal primitives"
      | _ => .err "cbor: cannot unmarshal"

/-- byron.go:60-105 `UnmarshalCBOR`, given the item read from the data, with `uint` of 32 bits (the checksum is a `uint32` on all machines). -/
def ofItem32 (strict : Bool) (x : Item) : Res ByronAddress :=
  match stripTags x with
  | .array [t, c] => do
    let crc ← toUint (2 ^ 32 - 1) c
    match t with
    | .tag n (.bytes rawTag) =>
      if n ≠ 24 then .err "invalid byron address"
      else if (crc.getD 0) ≠ (Crc32.checksum rawTag).toNat then .err "invalid byron checksum"
      else do
        let b ← decodeRaw32 strict rawTag
        if b.hash.length ≠ 28 ∨ b.tag ≠ 0 then .err ""
        else return b
    | .tag _ _ => .err "invalid byron address"
    | .simple n => if n = 22 ∨ n = 23 then .err "invalid byron address" else .err "cbor: cannot unmarshal"
    | _ => .err "cbor: cannot unmarshal"
  | _ => .err "cbor: cannot unmarshal"

/-- address.go:71 `cbor.Unmarshal(data, &byron)`, with `uint` of 32 bits. -/
def unmarshal32 (strict : Bool) (data : Bytes) : Res ByronAddress :=
  match parseFirst data with
  | none => .err "cbor: not well-formed"
  | some (x, rest) =>
    if strict ∧ rest ≠ [] then .err "cbor: extraneous data" else ofItem32 strict x

end Byron

namespace Addr

/-- address.go:57-153 `NewAddressFromBytes` with `uint` of 32 bits; it is used only in the Byron case (address.go:68-75). -/
def NewAddressFromBytes32 (strict : Bool) (data spare : Bytes) : Res Address :=
  match data with
  | [] => .panic
  | header :: _ =>
    if (header &&& 0xF0) >>> 4 = 8 then do
      let b ← Byron.unmarshal32 strict data
      return .byron b
    else NewAddressFromBytes strict data spare

/-- address.go:32-46 `NewAddress` with `uint` of 32 bits. -/
def NewAddress32 (strict : Bool) (raw spare : Bytes) : Res Address :=
  if hasPrefix raw (asc ['a','d','d','r']) || hasPrefix raw (asc ['s','t','a','k','e']) then
    match Bech32.Decode raw with
    | .ok (_, data) => NewAddressFromBytes32 strict data spare
    | .err m => .err m
    | .panic => .panic
  else NewAddressFromBytes32 strict (Base58.decode raw) spare

/-- address.go:48-55 `NewAddressFromHex` with `uint` of 32 bits. -/
def NewAddressFromHex32 (strict : Bool) (hexAddr spare : Bytes) : Res Address :=
  match Hex.decode hexAddr with
  | (_, some e) => .err e
  | (data, none) => NewAddressFromBytes32 strict data spare

end Addr
end Cardano
