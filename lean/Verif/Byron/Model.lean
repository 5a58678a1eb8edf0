import Verif.Cbor.Model
import Verif.Cbor.Spec
import Verif.Codec.Crc32
/-!
# Model of `address/byron.go`

`cbor.Unmarshal` (fxamacker/cbor v2.4.0, external) is modelled as: read the first RFC 8949 item (`Cbor.parseFirst`), then
convert the item to the Go type. Simplifications: the library's limits (nesting depth 32, 131072 elements) and UTF-8
checks are not modelled, so the model accepts a superset; `strict` says whether bytes after the first item are an error
(v2.4.0 ignores them, later versions do not): every theorem holds for both.
-/
set_option autoImplicit false

namespace Cardano
open Cbor

/-- byron.go:17-20 `ByronAddressAttributes`. A nil and an empty payload are not distinguished (`omitempty`). -/
structure ByronAttributes where
  payload : Bytes
  network : Option UInt8
  deriving DecidableEq, Repr

/-- byron.go:22-26 `ByronAddress`; `Tag` is a Go `uint`. -/
structure ByronAddress where
  hash : Bytes
  attributes : ByronAttributes
  tag : UInt64
  deriving DecidableEq, Repr

namespace Byron

/-- `cbor.Marshal` of `ByronAddressAttributes`: `keyasint`, both fields `omitempty`. -/
def attrBytes (a : ByronAttributes) : Bytes :=
  encMap ((if a.payload.length = 0 then [] else [(encUint 1, encBytes a.payload)]) ++
    (match a.network with
     | none => []
     | some n => [(encUint 2, encUint (UInt64.ofNat n.toNat))]))

/-- byron.go:49 `raw, err := cbor.Marshal([]interface{}{b.Hash, b.Attributes, b.Tag})`. A nil `Hash` would be encoded as
null instead of an empty byte string; not modelled. -/
def rawBytes (b : ByronAddress) : Bytes :=
  encArray [encBytes b.hash, attrBytes b.attributes, encUint b.tag]

/-- byron.go:48-57 `MarshalCBOR`; byron.go:29-32 `Bytes` returns the same bytes. -/
def bytes (b : ByronAddress) : Bytes :=
  let raw := rawBytes b
  encArray [encTag 24 (encBytes raw), encUint (UInt64.ofNat (Crc32.checksum raw).toNat)]

/-- fxamacker: decoding an item into an unsigned integer variable with maximum `max`; `none` when nothing is stored
(CBOR null/undefined). Tags are skipped; tag 2 is a bignum. -/
def toUint (max : Nat) : Item → Res (Option Nat)
  | .uint n => if n ≤ max then .ok (some n) else .err "cbor: cannot unmarshal, overflows"
  | .simple n =>
    if n = 22 ∨ n = 23 then .ok none
    else if n = 20 ∨ n = 21 then .err "cbor: cannot unmarshal primitives"
    else if n ≤ max then .ok (some n) else .err "cbor: cannot unmarshal, overflows"
  | .tag n x => match n, x with
    | 2, .bytes b => if beVal b ≤ max then .ok (some (beVal b)) else .err "cbor: cannot unmarshal, overflows"
    | 2, _ => .err "cbor: bignum"
    | 3, _ => .err "cbor: cannot unmarshal negative integer"
    | _, x => toUint max x
  | _ => .err "cbor: cannot unmarshal"

/-- Elements of a CBOR array decoded into a `[]byte`. -/
def toUint8s : List Item → Res Bytes
  | [] => .ok []
  | x :: xs => do
    let n ← toUint 255 x
    let r ← toUint8s xs
    return UInt8.ofNat (n.getD 0) :: r

/-- fxamacker: decoding an item into a `[]byte` variable; null leaves it nil. -/
def toBytes : Item → Res Bytes
  | .bytes b => .ok b
  | .array xs => toUint8s xs
  | .simple n => if n = 22 ∨ n = 23 then .ok [] else .err "cbor: cannot unmarshal primitives"
  | .tag _ x => toBytes x
  | _ => .err "cbor: cannot unmarshal"

/-- The pairs of a map decoded into `ByronAddressAttributes`: integer key 1 is the payload, 2 the network, other integer
and text keys are skipped, keys of other types are errors; a later duplicate wins. -/
def toAttrsPairs : List Item → ByronAttributes → Res ByronAttributes
  | k :: v :: rest, a =>
    match k with
    | .uint 1 => do
      let p ← toBytes v
      toAttrsPairs rest { a with payload := p }
    | .uint 2 => do
      let n ← toUint 255 v
      toAttrsPairs rest { a with network := n.map UInt8.ofNat }
    | .uint _ => toAttrsPairs rest a
    | .nint _ => toAttrsPairs rest a
    | .text _ => toAttrsPairs rest a
    | _ => .err "cbor: map key cannot be used to match struct field name"
  | _, a => .ok a

/-- fxamacker: decoding an item into `ByronAddressAttributes`. -/
def toAttrs : Item → Res ByronAttributes
  | .map kvs => toAttrsPairs kvs ⟨[], none⟩
  | .simple n => if n = 22 ∨ n = 23 then .ok ⟨[], none⟩ else .err "cbor: cannot unmarshal primitives"
  | .tag _ x => toAttrs x
  | _ => .err "cbor: cannot unmarshal"

/-- fxamacker: tags in front of an array decoded into a struct are skipped. -/
def stripTags : Item → Item
  | .tag _ x => stripTags x
  | x => x

/-- byron.go:83-92: `cbor.Unmarshal(rawTag, &byron)` into the three-field `toarray` struct. -/
def decodeRaw (strict : Bool) (raw : Bytes) : Res ByronAddress :=
  match parseFirst raw with
  | none => .err "cbor: not well-formed"
  | some (x, rest) =>
    if strict ∧ rest ≠ [] then .err "cbor: extraneous data"
    else match stripTags x with
      | .array [h, a, t] => do
        let hash ← toBytes h
        let attrs ← toAttrs a
        let tag ← toUint (2 ^ 64 - 1) t
        return ⟨hash, attrs, UInt64.ofNat (tag.getD 0)⟩
      | .simple n => if n = 22 ∨ n = 23 then .ok ⟨[], ⟨[], none⟩, 0⟩ else .err "cbor: cannot unmarshal primitives"
      | _ => .err "cbor: cannot unmarshal"

/-- byron.go:60-105 `UnmarshalCBOR`, given the item read from the data. -/
def ofItem (strict : Bool) (x : Item) : Res ByronAddress :=
  -- byron.go:61-71: struct { Tag cbor.Tag; Checksum uint32 }, toarray
  match stripTags x with
  | .array [t, c] => do
    let crc ← toUint (2 ^ 32 - 1) c
    match t with
    | .tag n (.bytes rawTag) =>
      -- byron.go:73-76
      if n ≠ 24 then .err "invalid byron address"
      -- byron.go:78-81
      else if (crc.getD 0) ≠ (Crc32.checksum rawTag).toNat then .err "invalid byron checksum"
      else do
        let b ← decodeRaw strict rawTag
        -- byron.go:94-96
        if b.hash.length ≠ 28 ∨ b.tag ≠ 0 then .err ""
        else return b
    | .tag _ _ => .err "invalid byron address"
    | .simple n => if n = 22 ∨ n = 23 then .err "invalid byron address" else .err "cbor: cannot unmarshal"
    | _ => .err "cbor: cannot unmarshal"
  | _ => .err "cbor: cannot unmarshal"

/-- `cbor.Unmarshal(data, &byron)` (address.go:71): the first item is handed to `UnmarshalCBOR`. -/
def unmarshal (strict : Bool) (data : Bytes) : Res ByronAddress :=
  match parseFirst data with
  | none => .err "cbor: not well-formed"
  | some (x, rest) =>
    if strict ∧ rest ≠ [] then .err "cbor: extraneous data" else ofItem strict x

end Byron
end Cardano
