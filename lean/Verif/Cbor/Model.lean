import Verif.Go.Basic
/-!
# Model of the encoder of `github.com/fxamacker/cbor/v2` v2.4.0 (external; default options)

Only what `/repo` calls: unsigned integers, byte strings, arrays, integer-keyed maps, tags, booleans, nil.
The library itself is not in `/repo`; the model follows its documented behaviour (RFC 8949 preferred serialisation of
heads, definite lengths).
-/
set_option autoImplicit false

namespace Cardano.Cbor

/-- `k` low bytes of `n`, big endian (`binary.BigEndian.PutUintXX`). -/
def beBytes : Nat → Nat → Bytes
  | 0, _ => []
  | k + 1, n => UInt8.ofNat (n / 256 ^ k) :: beBytes k n

/-- fxamacker/cbor `encodeHead(e, t, n)`: major type byte `t` (a multiple of 32) and argument `n : uint64`. -/
def encHead (t : UInt8) (n : UInt64) : Bytes :=
  if n.toNat < 24 then [t ||| UInt8.ofNat n.toNat]
  else if n.toNat < 2 ^ 8 then (t ||| 24) :: beBytes 1 n.toNat
  else if n.toNat < 2 ^ 16 then (t ||| 25) :: beBytes 2 n.toNat
  else if n.toNat < 2 ^ 32 then (t ||| 26) :: beBytes 4 n.toNat
  else (t ||| 27) :: beBytes 8 n.toNat

/-- `Marshal` of an unsigned integer. -/
def encUint (n : UInt64) : Bytes := encHead 0x00 n

/-- `Marshal` of a non-nil `[]byte`. Lengths are `int`, so below 2^63. -/
def encBytes (b : Bytes) : Bytes := encHead 0x40 (UInt64.ofNat b.length) ++ b

/-- `Marshal` of a slice or `toarray` struct whose elements marshal to `xs`. -/
def encArray (xs : List Bytes) : Bytes := encHead 0x80 (UInt64.ofNat xs.length) ++ xs.flatten

/-- `Marshal` of a `keyasint` struct: the pairs that are not omitted, in field order (keys and values already
encoded). -/
def encMap (kvs : List (Bytes × Bytes)) : Bytes :=
  encHead 0xa0 (UInt64.ofNat kvs.length) ++ (kvs.map fun kv => kv.1 ++ kv.2).flatten

/-- `Marshal` of `cbor.Tag{Number, Content}` with the content already encoded. -/
def encTag (n : UInt64) (content : Bytes) : Bytes := encHead 0xc0 n ++ content

/-- `Marshal(true)` is 0xf5, `Marshal(false)` 0xf4. -/
def encBool (b : Bool) : Bytes := if b then [0xf5] else [0xf4]

/-- `Marshal(nil)`: 0xf6. -/
def encNil : Bytes := [0xf6]

end Cardano.Cbor
