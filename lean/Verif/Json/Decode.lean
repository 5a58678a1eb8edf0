import Verif.Json.Model
/-!
# Model of `protocol/protocol.go` (loading) and of the queries of node/cardano-cli.go answered in JSON

`encoding/json` stores the values of an object into the fields of a struct one member after the other. A value of the wrong type leaves the field
unchanged and makes the call return an error at the end.
-/
set_option autoImplicit false

namespace Cardano.Json
open Transaction Node

/-- What Go returns: the value and, if not nil, the error. -/
structure Out (α : Type) where
  value : α
  err : Option String
  deriving DecidableEq, Repr

/-- An ASCII letter. -/
def isLetter (c : UInt8) : Bool := (65 ≤ c && c ≤ 90) || (97 ≤ c && c ≤ 122)

/-- `equalFoldRight` of `encoding/json` (`foldName` on both sides in later versions of Go): a name made of ASCII characters against a key. Case is
ignored; the long s (C5 BF) and the Kelvin sign (E2 84 AA) count as s and k. -/
def equalFold : (name key : Bytes) → Bool
  | [], key => key = []
  | _ :: _, [] => false
  | sb :: name, tb :: key =>
    if tb < 0x80 then
      (sb = tb || (isLetter sb && (sb &&& 0xdf) = (tb &&& 0xdf))) && equalFold name key
    else if sb = 0x73 ∨ sb = 0x53 then
      match key with
      | t1 :: key1 => if tb = 0xc5 ∧ t1 = 0xbf then equalFold name key1 else false
      | [] => false
    else if sb = 0x6b ∨ sb = 0x4b then
      match key with
      | t1 :: t2 :: key1 => if tb = 0xe2 ∧ t1 = 0x84 ∧ t2 = 0xaa then equalFold name key1 else false
      | _ => false
    else false

/-- The field of the struct with this name (in its `json` tag) is the one the key refers to. -/
def keyMatches (name key : Bytes) : Bool := key = name || equalFold name key

/-- The message of the errors for values of the wrong type (shortened). -/
def typeError : String := "json: cannot unmarshal value"

/-- The first error is kept (`saveError`). -/
def saveError (old new : Option String) : Option String := match old with
  | some e => some e
  | none => new

/-- `literalStore` (and `array`, `object`) with an unsigned field of that many bits as the target: the value stored and the error. -/
def storeUint (bits : Nat) (old : Nat) (v : JVal) : Nat × Option String :=
  match v with
  | .null => (old, none)
  | .num lit => match ParseUint 64 lit with
    | .ok n => if n < 2 ^ bits then (n, none) else (old, some typeError)
    | _ => (old, some typeError)
  | _ => (old, some typeError)

/-- The `json` tag at protocol.go:17. -/
def nTxFeePerByte : Bytes := asc ['t','x','F','e','e','P','e','r','B','y','t','e']
/-- The `json` tag at protocol.go:20. -/
def nTxFeeFixed : Bytes := asc ['t','x','F','e','e','F','i','x','e','d']
/-- The `json` tag at protocol.go:23. -/
def nMaxTxSize : Bytes := asc ['m','a','x','T','x','S','i','z','e']
/-- The `json` tag at protocol.go:26. -/
def nProtocolVersion : Bytes := asc ['p','r','o','t','o','c','o','l','V','e','r','s','i','o','n']
/-- The `json` tag at protocol.go:29. -/
def nMinUTxOValue : Bytes := asc ['m','i','n','U','T','x','O','V','a','l','u','e']
/-- The `json` tag at protocol.go:9. -/
def nMajor : Bytes := asc ['m','a','j','o','r']
/-- The `json` tag at protocol.go:10. -/
def nMinor : Bytes := asc ['m','i','n','o','r']

/-- protocol.go:8-11 `ProtocolVersion`: one member of the object. -/
def storeVersionMember (st : Out (UInt8 × UInt8)) (m : Bytes × JVal) : Out (UInt8 × UInt8) :=
  if keyMatches nMajor m.1 then
    let (n, e) := storeUint 8 st.value.1.toNat m.2
    ⟨(UInt8.ofNat n, st.value.2), saveError st.err e⟩
  else if keyMatches nMinor m.1 then
    let (n, e) := storeUint 8 st.value.2.toNat m.2
    ⟨(st.value.1, UInt8.ofNat n), saveError st.err e⟩
  else st

/-- A value for the field `ProtocolVersion`. -/
def storeVersion (st : Out (UInt8 × UInt8)) (v : JVal) : Out (UInt8 × UInt8) :=
  match v with
  | .null => st
  | .obj ms => ms.foldl storeVersionMember st
  | _ => ⟨st.value, saveError st.err (some typeError)⟩

/-- protocol.go:14-30 `Protocol`: one member of the object. -/
def storeMember (st : Out FullProtocol) (m : Bytes × JVal) : Out FullProtocol :=
  let p := st.value
  if keyMatches nTxFeePerByte m.1 then
    let (n, e) := storeUint 64 p.params.txFeePerByte.toNat m.2
    ⟨{ p with params := { p.params with txFeePerByte := UInt64.ofNat n } }, saveError st.err e⟩
  else if keyMatches nTxFeeFixed m.1 then
    let (n, e) := storeUint 64 p.params.txFeeFixed.toNat m.2
    ⟨{ p with params := { p.params with txFeeFixed := UInt64.ofNat n } }, saveError st.err e⟩
  else if keyMatches nMaxTxSize m.1 then
    let (n, e) := storeUint 64 p.params.maxTxSize.toNat m.2
    ⟨{ p with params := { p.params with maxTxSize := UInt64.ofNat n } }, saveError st.err e⟩
  else if keyMatches nProtocolVersion m.1 then
    let o := storeVersion ⟨(p.major, p.minor), st.err⟩ m.2
    ⟨{ p with major := o.value.1, minor := o.value.2 }, o.err⟩
  else if keyMatches nMinUTxOValue m.1 then
    let (n, e) := storeUint 64 p.params.minUTXOValue.toNat m.2
    ⟨{ p with params := { p.params with minUTXOValue := UInt64.ofNat n } }, saveError st.err e⟩
  else st

/-- `json.Unmarshal(data, p)` with `p` a `*Protocol`. -/
def unmarshalProtocol (data : Bytes) (p : FullProtocol) : Out FullProtocol :=
  match parse data with
  | none => ⟨p, some "invalid JSON"⟩
  | some .null => ⟨p, none⟩
  | some (.obj ms) => ms.foldl storeMember ⟨p, none⟩
  | some _ => ⟨p, some typeError⟩

/-- protocol.go:43 `&Protocol{}`. -/
def zeroProtocol : FullProtocol := ⟨⟨0, 0, 0, 0⟩, 0, 0⟩

/-- protocol.go:42-47 `loadProtocolFromBytes`. -/
def loadProtocolFromBytes (pByte : Bytes) : Out FullProtocol := unmarshalProtocol pByte zeroProtocol

/-- protocol.go:34-40 `LoadProtocol`; `read` is the file system. -/
def loadProtocol (read : Bytes → Res Bytes) (fp : Bytes) : Out FullProtocol :=
  match read fp with
  | .ok pByte => loadProtocolFromBytes pByte
  | .err e => ⟨zeroProtocol, some e⟩
  | .panic => ⟨zeroProtocol, some "no panic in ReadFile"⟩

/-- cardano-cli.go:23-46: the slice `execCommand` returns is nil when the process fails. -/
def outputOf (r : Res Bytes) : Bytes := match r with
  | .ok data => data
  | _ => []

/-- cardano-cli.go:48-55 `ProtocolParameters`: the error of the command is overwritten by that of `Unmarshal`, whose own variable is
returned when not nil. -/
def cliProtocolParameters (run : List Bytes → Res Bytes) (net : NetworkInfo) : Out FullProtocol :=
  let r := execCommand run net [asc ['q','u','e','r','y'], asc ['p','r','o','t','o','c','o','l','-','p','a','r','a','m','e','t','e','r','s']]
  let o := unmarshalProtocol (outputOf r) zeroProtocol
  match o.err with
  | some e => ⟨o.value, some e⟩
  | none => ⟨o.value, match r with
    | .err e => some e
    | _ => none⟩

/-- The `json` tag at types.go:5. -/
def nSlot : Bytes := asc ['s','l','o','t']
/-- The `json` tag at types.go:6. -/
def nEpoch : Bytes := asc ['e','p','o','c','h']
/-- The `json` tag at types.go:7. -/
def nBlock : Bytes := asc ['b','l','o','c','k']

/-- types.go:4-8 `NetworkTip`: one member of the object. -/
def storeTipMember (st : Out NetworkTip) (m : Bytes × JVal) : Out NetworkTip :=
  let p := st.value
  if keyMatches nSlot m.1 then
    let (n, e) := storeUint 64 p.slot.toNat m.2
    ⟨{ p with slot := UInt64.ofNat n }, saveError st.err e⟩
  else if keyMatches nEpoch m.1 then
    let (n, e) := storeUint 64 p.epoch.toNat m.2
    ⟨{ p with epoch := UInt64.ofNat n }, saveError st.err e⟩
  else if keyMatches nBlock m.1 then
    let (n, e) := storeUint 64 p.block.toNat m.2
    ⟨{ p with block := UInt64.ofNat n }, saveError st.err e⟩
  else st

/-- `json.Unmarshal(data, tip)` with `tip` a `*NetworkTip`. -/
def unmarshalTip (data : Bytes) (p : NetworkTip) : Out NetworkTip :=
  match parse data with
  | none => ⟨p, some "invalid JSON"⟩
  | some .null => ⟨p, none⟩
  | some (.obj ms) => ms.foldl storeTipMember ⟨p, none⟩
  | some _ => ⟨p, some typeError⟩

/-- cardano-cli.go:95-102 `QueryTip`. -/
def cliQueryTip (run : List Bytes → Res Bytes) (net : NetworkInfo) : Out NetworkTip :=
  let r := execCommand run net [asc ['q','u','e','r','y'], asc ['t','i','p']]
  let o := unmarshalTip (outputOf r) ⟨0, 0, 0⟩
  match o.err with
  | some e => ⟨o.value, some e⟩
  | none => ⟨o.value, match r with
    | .err e => some e
    | _ => none⟩

end Cardano.Json
