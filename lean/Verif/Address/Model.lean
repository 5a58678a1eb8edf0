import Verif.Bech32.Model
import Verif.Codec.Base58
import Verif.Codec.Hex
import Verif.Byron.Model
/-!
# Model of `address/*.go` (Byron part in `Byron/Model.lean`) and `network/network.go`
-/
set_option autoImplicit false

namespace Cardano

/-- network.go:3-6 `NetworkInfo`. -/
structure NetworkInfo where
  networkId : UInt8
  protocolMagic : UInt32
  deriving DecidableEq, Repr

/-- network.go:8-13. -/
def TestNet : NetworkInfo := ⟨0, 1097911063⟩
/-- network.go:15-20. -/
def MainNet : NetworkInfo := ⟨1, 764824073⟩

/-- stake_credential.go:10-13 `StakeCredential`; `Kind` is a byte (0 key, 1 script; other values are representable). -/
structure Cred where
  kind : UInt8
  payload : Bytes
  deriving DecidableEq, Repr

/-- pointer.go:12-16 `StakePointer`. -/
structure StakePointer where
  slot : UInt64
  txIndex : UInt64
  certIndex : UInt64
  deriving DecidableEq, Repr

/-- The five implementations of the `Address` interface: base.go:12-16, enterprise.go:11-14, pointer.go:19-23,
reward.go:11-14, byron.go:22-26. -/
inductive Address where
  | base (net : NetworkInfo) (payment stake : Cred)
  | enterprise (net : NetworkInfo) (payment : Cred)
  | pointer (net : NetworkInfo) (payment : Cred) (stake : StakePointer)
  | reward (net : NetworkInfo) (stake : Cred)
  | byron (b : ByronAddress)
  deriving DecidableEq, Repr

/-- stake_credential.go:15-20 `NewKeyStakeCredential`. -/
def NewKeyStakeCredential (hash : Bytes) : Cred := ⟨0, hash⟩
/-- stake_credential.go:22-27 `NewScriptStakeCredential`. -/
def NewScriptStakeCredential (hash : Bytes) : Cred := ⟨1, hash⟩
/-- base.go:71-77 `NewBaseAddress`. -/
def NewBaseAddress (net : NetworkInfo) (payment stake : Cred) : Address := .base net payment stake
/-- enterprise.go:49-54 `NewEnterpriseAddress`. -/
def NewEnterpriseAddress (net : NetworkInfo) (payment : Cred) : Address := .enterprise net payment
/-- reward.go:50-55 `NewRewardAddress`. -/
def NewRewardAddress (net : NetworkInfo) (stake : Cred) : Address := .reward net stake
/-- pointer.go:97-103 `NewPointer`. -/
def NewPointer (slot txIndex certIndex : UInt64) : StakePointer := ⟨slot, txIndex, certIndex⟩
/-- pointer.go:106-112 `NewPointerAddress`. -/
def NewPointerAddress (net : NetworkInfo) (payment : Cred) (stake : StakePointer) : Address := .pointer net payment stake

namespace Addr

/-- Go `copy` into a zeroed slice of length `n`. -/
def copyZ (n : Nat) (src : Bytes) : Bytes := (src ++ List.replicate n 0).take n

/-- pointer.go:29-32, the loop `for num > 0 { output = append(output, byte(num)&0x7F|0x80); num /= 128 }`. A `uint64`
needs at most nine iterations after the first division; the recursion is bounded by a counter started at 10
(C14 shows this is enough). -/
def natLoop : Nat → UInt64 → Bytes
  | 0, _ => []
  | f + 1, num => if num > 0 then (num.toUInt8 &&& 0x7F ||| 0x80) :: natLoop f (num / 128) else []

/-- pointer.go:25-35 `VariableNatEncode`, with pointer.go:51-57 `reverseAny`. -/
def VariableNatEncode (num : UInt64) : Bytes :=
  ((num.toUInt8 &&& 0x7F) :: natLoop 10 (num / 128)).reverse

/-- pointer.go:41-47, the loop with `output` and `bytes_read`. -/
def natDecodeLoop : Bytes → UInt64 → Nat → Res (UInt64 × Nat)
  | [], _, _ => .err "unexpected bytes"
  | rbyte :: rest, output, bytesRead =>
    let output := (output <<< 7) ||| (rbyte &&& 0x7F).toUInt64
    let bytesRead := bytesRead + 1
    if rbyte &&& 0x80 = 0 then .ok (output, bytesRead) else natDecodeLoop rest output bytesRead

/-- pointer.go:37-49 `VariableNatDecode`. -/
def VariableNatDecode (raw : Bytes) : Res (UInt64 × Nat) := natDecodeLoop raw 0 0

/-- `Bytes()` of the five types: base.go:19-25, enterprise.go:17-22, pointer.go:65-75, reward.go:17-22, byron.go:29. -/
def bytes : Address → Bytes
  | .base net p s =>
    ((p.kind <<< 4) ||| (s.kind <<< 5) ||| (net.networkId &&& 0xf)) :: (copyZ 28 p.payload ++ copyZ 28 s.payload)
  | .enterprise net p => ((0x60 : UInt8) ||| (p.kind <<< 4) ||| (net.networkId &&& 0xf)) :: copyZ 28 p.payload
  | .pointer net p s =>
    ((0x40 : UInt8) ||| (p.kind <<< 4) ||| (net.networkId &&& 0xF)) :: p.payload ++ VariableNatEncode s.slot ++
      VariableNatEncode s.txIndex ++ VariableNatEncode s.certIndex
  | .reward net s => ((0xe0 : UInt8) ||| (s.kind <<< 4) ||| (net.networkId &&& 0xf)) :: copyZ 28 s.payload
  | .byron b => Byron.bytes b

/-- `Prefix()`: base.go:40-45, enterprise.go:36-41, pointer.go:84-89, reward.go:42-47, byron.go:108. -/
def pfx : Address → Bytes
  | .base net _ _ => if net.networkId = TestNet.networkId then asc ['a','d','d','r','_','t','e','s','t'] else asc ['a','d','d','r']
  | .enterprise net _ => if net.networkId = TestNet.networkId then asc ['a','d','d','r','_','t','e','s','t'] else asc ['a','d','d','r']
  | .pointer net _ _ => if net = TestNet then asc ['a','d','d','r','_','t','e','s','t'] else asc ['a','d','d','r']
  | .reward net _ => if net.networkId = TestNet.networkId then asc ['s','t','a','k','e','_','t','e','s','t'] else asc ['s','t','a','k','e']
  | .byron _ => []

/-- `NetworkInfo()` of each type: base.go:35-37, enterprise.go:31-33, pointer.go:92-94, reward.go:37-39, byron.go:40-45. -/
def networkInfo : Address → NetworkInfo
  | .base net _ _ => net
  | .enterprise net _ => net
  | .pointer net _ _ => net
  | .reward net _ => net
  | .byron b => if b.attributes.network = none then MainNet else TestNet

/-- `str, _ := f()`: the value, or the zero value on error. -/
def orEmpty : Res Bytes → Res Bytes
  | .ok s => .ok s
  | .err _ => .ok []
  | .panic => .panic

/-- `Encode` of `github.com/btcsuite/btcutil/bech32` v1.0.2 (external), used by pointer.go:79 only: the data bytes must
already be 5-bit symbols, otherwise `toChars` fails. -/
def btcBech32Encode (hrp data : Bytes) : Res Bytes :=
  if data.any (fun b => 32 ≤ b) then .err "unable to convert data bytes to chars"
  else do
    let d ← Bech32.writeSyms data
    let c ← Bech32.writeSyms (Bech32.createChecksum hrp data)
    return hrp ++ [49] ++ d ++ c

/-- `String()`: base.go:28-32, enterprise.go:25-28, pointer.go:78-81, reward.go:25-29, byron.go:35-37. -/
def string (a : Address) : Res Bytes :=
  match a with
  | .pointer _ _ _ => orEmpty (btcBech32Encode (pfx a) (bytes a))
  | .byron b => .ok (Base58.encode (Byron.bytes b))
  | a => orEmpty (Bech32.Encode (pfx a) (bytes a))

/-- base.go:53-59 `ToEnterprise`. -/
def toEnterprise (net : NetworkInfo) (payment _stake : Cred) : Address := .enterprise net payment
/-- base.go:62-68 `ToReward`. -/
def toReward (net : NetworkInfo) (_payment stake : Cred) : Address := .reward net stake

/-- address.go:61-64: the map `networks`; a missing key gives the zero `NetworkInfo`. -/
def networks (id : UInt8) : NetworkInfo :=
  if id = 1 then MainNet else if id = 0 then TestNet else ⟨0, 0⟩

/-- address.go:155-166 `readAddrCred`. The slice expression `data[pos:pos+28]` is checked against the *capacity* of
`data`, so it can reach the `spare` bytes behind its length; it panics only beyond the capacity. -/
def readAddrCred (data spare : Bytes) (header : UInt8) (bit : Nat) (pos : Nat) : Res Cred :=
  if pos + 28 > data.length + spare.length then .panic
  else
    let hashBytes := ((data ++ spare).drop pos).take 28
    if header &&& goShl8 1 bit = 0 then .ok ⟨0, hashBytes⟩ else .ok ⟨1, hashBytes⟩

/-- address.go:57-153 `NewAddressFromBytes` of a slice with contents `data` and, between length and capacity, `spare`.
On a Byron decoding error Go returns a non-nil address together with the error; the model returns just the error. -/
def NewAddressFromBytes (strict : Bool) (data spare : Bytes) : Res Address :=
  match data with
  | [] => .panic                                   -- data[0], index out of range
  | header :: _ =>
    let netId := header &&& 0x0F
    let ty := (header &&& 0xF0) >>> 4
    if ty = 8 then do
      let b ← Byron.unmarshal strict data
      return .byron b
    else if ty = 0 ∨ ty = 1 ∨ ty = 2 ∨ ty = 3 then do
      let payment ← readAddrCred data spare header 4 1
      let stake ← readAddrCred data spare header 5 (1 + 28)
      return .base (networks netId) payment stake
    else if ty = 4 ∨ ty = 5 then
      if data.length < 1 + 28 + 1 + 1 + 1 then .err "cbor not enough error"
      else do
        let paymentCred ← readAddrCred data spare header 4 1
        let (slot, slotBytes) ← VariableNatDecode (data.drop 29)
        let (txIndex, txBytes) ← VariableNatDecode (data.drop (29 + slotBytes))
        let (certIndex, certBytes) ← VariableNatDecode (data.drop (29 + slotBytes + txBytes))
        if 29 + slotBytes + txBytes + certBytes < data.length then .err "cbor trailing data error"
        else return .pointer (networks netId) paymentCred ⟨slot, txIndex, certIndex⟩
    else if ty = 6 ∨ ty = 7 then
      if data.length < 29 then .err "cbor not enough error"
      else if data.length > 29 then .err "cbor trailing data error"
      else do
        let payment ← readAddrCred data spare header 4 1
        return .enterprise (networks netId) payment
    else if ty = 14 ∨ ty = 15 then
      if data.length < 29 then .err "cbor not enough error"
      else if data.length > 29 then .err "cbor trailing data error"
      else do
        let stake ← readAddrCred data spare header 4 1
        return .reward (networks netId) stake
    else .err "invalid/unsupported address type"

/-- `strings.HasPrefix`. -/
def hasPrefix (s p : Bytes) : Bool := s.take p.length == p

/-- address.go:32-46 `NewAddress`. `spare` is whatever the decoder leaves behind the length of its result. -/
def NewAddress (strict : Bool) (raw spare : Bytes) : Res Address :=
  if hasPrefix raw (asc ['a','d','d','r']) || hasPrefix raw (asc ['s','t','a','k','e']) then
    match Bech32.Decode raw with
    | .ok (_, data) => NewAddressFromBytes strict data spare
    | .err m => .err m
    | .panic => .panic
  else NewAddressFromBytes strict (Base58.decode raw) spare

/-- address.go:48-55 `NewAddressFromHex`. -/
def NewAddressFromHex (strict : Bool) (hexAddr spare : Bytes) : Res Address :=
  match Hex.decode hexAddr with
  | (_, some e) => .err e
  | (data, none) => NewAddressFromBytes strict data spare

end Addr
end Cardano
