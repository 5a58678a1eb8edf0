import Verif.Json.Decode
/-!
# Protocol parameters and tips on machines where `uint` has 32 bits

As in `Verif.Tx.Word32`: the values are kept in the same structures, with numbers below `2^32` in the fields of type `uint`.
-/
set_option autoImplicit false

namespace Cardano.Json
open Node

/-- protocol.go:14-30 `Protocol`, one member of the object, with `uint` of 32 bits (protocol.go:17, 20, 23, 29). -/
def storeMember32 (st : Out FullProtocol) (m : Bytes × JVal) : Out FullProtocol :=
  let p := st.value
  if keyMatches nTxFeePerByte m.1 then
    let (n, e) := storeUint 32 p.params.txFeePerByte.toNat m.2
    ⟨{ p with params := { p.params with txFeePerByte := UInt64.ofNat n } }, saveError st.err e⟩
  else if keyMatches nTxFeeFixed m.1 then
    let (n, e) := storeUint 32 p.params.txFeeFixed.toNat m.2
    ⟨{ p with params := { p.params with txFeeFixed := UInt64.ofNat n } }, saveError st.err e⟩
  else if keyMatches nMaxTxSize m.1 then
    let (n, e) := storeUint 32 p.params.maxTxSize.toNat m.2
    ⟨{ p with params := { p.params with maxTxSize := UInt64.ofNat n } }, saveError st.err e⟩
  else if keyMatches nProtocolVersion m.1 then
    let o := storeVersion ⟨(p.major, p.minor), st.err⟩ m.2
    ⟨{ p with major := o.value.1, minor := o.value.2 }, o.err⟩
  else if keyMatches nMinUTxOValue m.1 then
    let (n, e) := storeUint 32 p.params.minUTXOValue.toNat m.2
    ⟨{ p with params := { p.params with minUTXOValue := UInt64.ofNat n } }, saveError st.err e⟩
  else st

/-- `json.Unmarshal(data, p)` with `p` a `*Protocol` and `uint` of 32 bits. -/
def unmarshalProtocol32 (data : Bytes) (p : FullProtocol) : Out FullProtocol :=
  match parse data with
  | none => ⟨p, some "invalid JSON"⟩
  | some .null => ⟨p, none⟩
  | some (.obj ms) => ms.foldl storeMember32 ⟨p, none⟩
  | some _ => ⟨p, some typeError⟩

/-- protocol.go:34-40 `LoadProtocol` with `loadProtocolFromBytes` inlined (protocol.go:42-47), with `uint` of 32 bits; `read` is the file system. -/
def loadProtocol32 (read : Bytes → Res Bytes) (fp : Bytes) : Out FullProtocol :=
  match read fp with
  | .ok pByte => unmarshalProtocol32 pByte zeroProtocol
  | .err e => ⟨zeroProtocol, some e⟩
  | .panic => ⟨zeroProtocol, some "no panic in ReadFile"⟩

/-- cardano-cli.go:48-55 `ProtocolParameters`, with `uint` of 32 bits. -/
def cliProtocolParameters32 (run : List Bytes → Res Bytes) (net : NetworkInfo) : Out FullProtocol :=
  let r := execCommand run net [asc ['q','u','e','r','y'], asc ['p','r','o','t','o','c','o','l','-','p','a','r','a','m','e','t','e','r','s']]
  let o := unmarshalProtocol32 (outputOf r) zeroProtocol
  match o.err with
  | some e => ⟨o.value, some e⟩
  | none => ⟨o.value, match r with
    | .err e => some e
    | _ => none⟩

/-- types.go:4-8 `NetworkTip`, one member of the object, with `uint` of 32 bits. -/
def storeTipMember32 (st : Out NetworkTip) (m : Bytes × JVal) : Out NetworkTip :=
  let p := st.value
  if keyMatches nSlot m.1 then
    let (n, e) := storeUint 32 p.slot.toNat m.2
    ⟨{ p with slot := UInt64.ofNat n }, saveError st.err e⟩
  else if keyMatches nEpoch m.1 then
    let (n, e) := storeUint 32 p.epoch.toNat m.2
    ⟨{ p with epoch := UInt64.ofNat n }, saveError st.err e⟩
  else if keyMatches nBlock m.1 then
    let (n, e) := storeUint 32 p.block.toNat m.2
    ⟨{ p with block := UInt64.ofNat n }, saveError st.err e⟩
  else st

/-- `json.Unmarshal(data, tip)` with `tip` a `*NetworkTip` and `uint` of 32 bits. -/
def unmarshalTip32 (data : Bytes) (p : NetworkTip) : Out NetworkTip :=
  match parse data with
  | none => ⟨p, some "invalid JSON"⟩
  | some .null => ⟨p, none⟩
  | some (.obj ms) => ms.foldl storeTipMember32 ⟨p, none⟩
  | some _ => ⟨p, some typeError⟩

/-- cardano-cli.go:95-102 `QueryTip`, with `uint` of 32 bits. -/
def cliQueryTip32 (run : List Bytes → Res Bytes) (net : NetworkInfo) : Out NetworkTip :=
  let r := execCommand run net [asc ['q','u','e','r','y'], asc ['t','i','p']]
  let o := unmarshalTip32 (outputOf r) ⟨0, 0, 0⟩
  match o.err with
  | some e => ⟨o.value, some e⟩
  | none => ⟨o.value, match r with
    | .err e => some e
    | _ => none⟩

end Cardano.Json
