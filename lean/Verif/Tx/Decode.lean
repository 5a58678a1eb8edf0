import Verif.Tx.Spec
/-!
# `cbor.Unmarshal` into the types of package `tx`

The package documents its types as "structs for serialization and deserialization" (tx/README.md, doc.go:3); decoding is left to `cbor.Unmarshal` of fxamacker/cbor v2.4.0
(go.mod:10), which works on the struct definitions. A decoder fills a variable and goes on after an error of type; it returns the first one. Modelled from the
library's documentation and behaviour, for variables whose lists are empty (`var t tx.Tx`, `tx.NewTx()`). Simplified: tags in the place of numbers, byte strings and structs (the
library looks through most of them), and arrays of numbers in the place of byte strings, are errors here; the package writes neither.
-/
set_option autoImplicit false

namespace Cardano.TxDecode
open Cbor

/-- The variable after decoding, and the first error. -/
structure Dec (α : Type) where
  value : α
  err : Option String

/-- The first error is kept. -/
def firstErr (a b : Option String) : Option String :=
  match a with
  | some e => some e
  | none => b

/-- `*UnmarshalTypeError`. -/
def typeError : Option String := some "cbor: cannot unmarshal"

/-- null and undefined. -/
def isNil : Item → Bool
  | .simple 22 => true
  | .simple 23 => true
  | _ => false

/-- Into an unsigned number of `bits` bits: null leaves it as it is. -/
def uintInto (bits : Nat) (old : Nat) (x : Item) : Dec Nat :=
  if isNil x then ⟨old, none⟩
  else match x with
    | .uint n => if n < 2 ^ bits then ⟨n, none⟩ else ⟨old, typeError⟩
    | _ => ⟨old, typeError⟩

/-- Into a `[]byte`: null makes it nil. -/
def bytesInto (old : Bytes) (x : Item) : Dec Bytes :=
  if isNil x then ⟨[], none⟩
  else match x with
    | .bytes b => ⟨b, none⟩
    | _ => ⟨old, typeError⟩

/-- Into a `bool`. -/
def boolInto (old : Bool) (x : Item) : Dec Bool :=
  if isNil x then ⟨old, none⟩
  else match x with
    | .simple 20 => ⟨false, none⟩
    | .simple 21 => ⟨true, none⟩
    | _ => ⟨old, typeError⟩

/-- Into a pointer: null makes it nil; otherwise it points to a new variable if it was nil. -/
def ptrInto {α : Type} (f : α → Item → Dec α) (zero : α) (old : Option α) (x : Item) : Dec (Option α) :=
  if isNil x then ⟨none, none⟩
  else
    let d := f (old.getD zero) x
    ⟨some d.value, d.err⟩

/-- The elements of a new slice, one after the other, also after an error. -/
def elemsInto {α : Type} (f : Item → Dec α) : List Item → Dec (List α)
  | [] => ⟨[], none⟩
  | x :: xs =>
    let d := f x
    let ds := elemsInto f xs
    ⟨d.value :: ds.value, firstErr d.err ds.err⟩

/-- Into a slice that is empty before. -/
def sliceInto {α : Type} (f : Item → Dec α) (old : List α) (x : Item) : Dec (List α) :=
  if isNil x then ⟨[], none⟩
  else match x with
    | .array xs => elemsInto f xs
    | _ => ⟨old, typeError⟩

/-- Into a nil variable of the interface `address.Address` (address.go:19-31), which is not the empty interface: only null is possible. -/
def addressInto (x : Item) : Dec (Option Address) :=
  if isNil x then ⟨none, none⟩ else ⟨none, typeError⟩

/-- An output as decoded: the address may be nil. -/
structure OutputVar where
  address : Option Address
  amount : UInt64

/-- Into a `TxOutput` (tx_input_output.go:42-46): a struct written as an array, of two elements. -/
def outputInto (old : OutputVar) (x : Item) : Dec OutputVar :=
  if isNil x then ⟨old, none⟩
  else match x with
    | .array [a, n] =>
      let da := addressInto a
      let dn := uintInto 64 old.amount.toNat n
      ⟨⟨da.value, UInt64.ofNat dn.value⟩, firstErr da.err dn.err⟩
    | _ => ⟨old, typeError⟩

/-- Into a `TxInput` (tx_input_output.go:10-16): the struct has no option `toarray` and the type no `UnmarshalCBOR` (tx_input_output.go:29-40 is for writing only), so
an array is an error. A map with the names of the fields would be accepted by the library; the package never writes one, here it is an error. -/
def inputInto (old : TxInput) (x : Item) : Dec TxInput :=
  if isNil x then ⟨old, none⟩ else ⟨old, typeError⟩

/-- Into a `VKeyWitness` (tx_witness_set.go:21-25). -/
def vkeyInto (old : VKeyWitness) (x : Item) : Dec VKeyWitness :=
  if isNil x then ⟨old, none⟩
  else match x with
    | .array [k, s] =>
      let dk := bytesInto old.vkey k
      let ds := bytesInto old.signature s
      ⟨⟨dk.value, ds.value⟩, firstErr dk.err ds.err⟩
    | _ => ⟨old, typeError⟩

/-- Into a struct written as a map with numbers as keys: entry by entry, `set` stores one in its field; entries with other keys are skipped. -/
def fieldsInto {α : Type} (set : Nat → α → Item → Dec α) : α → List Item → Dec α
  | v, .uint k :: x :: rest =>
    let d := set k v x
    let ds := fieldsInto set d.value rest
    ⟨ds.value, firstErr d.err ds.err⟩
  | v, _ :: _ :: rest => fieldsInto set v rest
  | v, _ => ⟨v, none⟩

/-- The same, from any item. -/
def structInto {α : Type} (set : Nat → α → Item → Dec α) (old : α) (x : Item) : Dec α :=
  if isNil x then ⟨old, none⟩
  else match x with
    | .map kvs => fieldsInto set old kvs
    | _ => ⟨old, typeError⟩

/-- The witnesses, as pointers. -/
abbrev WitnessVar := List (Option VKeyWitness)

/-- Into a `Witness` (tx_witness_set.go:3-5), its only field has the key 0. -/
def witnessInto : WitnessVar → Item → Dec WitnessVar :=
  structInto fun k old x => if k = 0 then sliceInto (ptrInto vkeyInto ⟨[], []⟩ none) old x else ⟨old, none⟩

/-- A body as decoded. -/
structure BodyVar where
  inputs : List (Option TxInput)
  outputs : List (Option OutputVar)
  fee : UInt64
  ttl : UInt32
  auxHash : Bytes

/-- One field of a `TxBody` (tx_body.go:10-16). -/
def setBodyField (k : Nat) (old : BodyVar) (x : Item) : Dec BodyVar :=
  match k with
  | 0 => let d := sliceInto (ptrInto inputInto ⟨[], 0, 0⟩ none) old.inputs x; ⟨{ old with inputs := d.value }, d.err⟩
  | 1 => let d := sliceInto (ptrInto outputInto ⟨none, 0⟩ none) old.outputs x; ⟨{ old with outputs := d.value }, d.err⟩
  | 2 => let d := uintInto 64 old.fee.toNat x; ⟨{ old with fee := UInt64.ofNat d.value }, d.err⟩
  | 3 => let d := uintInto 32 old.ttl.toNat x; ⟨{ old with ttl := UInt32.ofNat d.value }, d.err⟩
  | 7 => let d := bytesInto old.auxHash x; ⟨{ old with auxHash := d.value }, d.err⟩
  | _ => ⟨old, none⟩

/-- Into a `TxBody`. -/
def bodyInto : BodyVar → Item → Dec BodyVar := structInto setBodyField

/-- `TxBody{}` or `NewTxBody()`. -/
def zeroBody : BodyVar := ⟨[], [], 0, 0, []⟩

/-- A transaction as decoded. The metadata, of type `interface{}`, is given by the item from which its value is made; `none`: nil. -/
structure TxVar where
  body : Option BodyVar
  witness : Option WitnessVar
  valid : Bool
  metadata : Option Item

/-- `var t tx.Tx`. -/
def zeroTx : TxVar := ⟨none, none, false, none⟩

/-- `tx.NewTx()`, tx.go:20-26. -/
def newTx : TxVar := ⟨some zeroBody, some [], true, none⟩

/-- Into a `Tx` (tx.go:11-17); `any` decodes into `interface{}`: its error (keys of maps that Go cannot compare) depends on the item. -/
def txInto (any : Item → Option String) (old : TxVar) (x : Item) : Dec TxVar :=
  if isNil x then ⟨old, none⟩
  else match x with
    | .array [b, w, v, m] =>
      let db := ptrInto bodyInto zeroBody old.body b
      let dw := ptrInto witnessInto [] old.witness w
      let dv := boolInto old.valid v
      let dm : Dec (Option Item) := if isNil m then ⟨old.metadata, none⟩ else ⟨some m, any m⟩
      ⟨⟨db.value, dw.value, dv.value, dm.value⟩, firstErr db.err (firstErr dw.err (firstErr dv.err dm.err))⟩
    | _ => ⟨old, typeError⟩

/-- `cbor.Unmarshal(bs, &v)`: the text is checked first; `limits` are those of the library on depth and number of elements. -/
def unmarshal {α : Type} (limits : Item → Bool) (into : α → Item → Dec α) (old : α) (bs : Bytes) : Dec α :=
  match parse bs with
  | none => ⟨old, some "cbor: not well-formed"⟩
  | some x => if limits x then into old x else ⟨old, some "cbor: exceeds limits"⟩

end Cardano.TxDecode
