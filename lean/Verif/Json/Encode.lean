import Verif.Json.Decode
/-!
# Model of `json.Marshal` and `json.MarshalIndent` on the types of this package, and of `json.Unmarshal` on inputs

`encoding/json` walks a struct and writes its exported fields in the order of their declaration. Here a struct is first made into a JSON value, then the value is
written. `MarshalIndent` reformats the text of `Marshal`; here both are one function with the line breaks as a parameter.
-/
set_option autoImplicit false

namespace Cardano.Json
open Transaction Node

/-! ## Writing values -/

/-- A hexadecimal digit as `encoding/json` writes it. -/
def hexLow (n : UInt8) : UInt8 := if n < 10 then 48 + n else 87 + n

/-- `encodeState.string` with `escapeHTML`, for one ASCII character. (From Go 1.22 on, \b and \f are written instead of \u0008 and \u000c.) -/
def encChar (c : UInt8) : Bytes :=
  if c = 0x22 ∨ c = 0x5c then [0x5c, c]
  else if c = 0x0a then [0x5c, 0x6e]
  else if c = 0x0d then [0x5c, 0x72]
  else if c = 0x09 then [0x5c, 0x74]
  else if c < 0x20 ∨ c = 0x3c ∨ c = 0x3e ∨ c = 0x26 then [0x5c, 0x75, 0x30, 0x30, hexLow (c >>> 4), hexLow (c &&& 0xf)]
  else [c]

/-- `encodeState.string`: a string of ASCII characters with its quotation marks. Other characters do not occur in what is written here. -/
def encStr (s : Bytes) : Bytes := 0x22 :: (s.flatMap encChar ++ [0x22])

mutual
/-- The text of a value at a nesting depth; `nl` is the line break and indentation, `sp` what follows a colon. Empty objects and arrays have no line break in them. -/
def write (nl : Nat → Bytes) (sp : Bytes) : JVal → (depth : Nat) → Bytes
  | .null, _ => asc ['n','u','l','l']
  | .bool b, _ => if b then asc ['t','r','u','e'] else asc ['f','a','l','s','e']
  | .num lit, _ => lit
  | .str s, _ => encStr s
  | .arr vs, d => 0x5b :: (if vs.isEmpty then [0x5d] else writeElems nl sp vs (d + 1) ++ (nl d ++ [0x5d]))
  | .obj ms, d => 0x7b :: (if ms.isEmpty then [0x7d] else writeMembers nl sp ms (d + 1) ++ (nl d ++ [0x7d]))

/-- The elements of an array. -/
def writeElems (nl : Nat → Bytes) (sp : Bytes) : List JVal → (depth : Nat) → Bytes
  | [], _ => []
  | v :: vs, d => nl d ++ (write nl sp v d ++ (if vs.isEmpty then [] else 0x2c :: writeElems nl sp vs d))

/-- The members of an object. -/
def writeMembers (nl : Nat → Bytes) (sp : Bytes) : List (Bytes × JVal) → (depth : Nat) → Bytes
  | [], _ => []
  | m :: ms, d => nl d ++ (writeMember nl sp m d ++ (if ms.isEmpty then [] else 0x2c :: writeMembers nl sp ms d))

/-- One member. -/
def writeMember (nl : Nat → Bytes) (sp : Bytes) : Bytes × JVal → (depth : Nat) → Bytes
  | (k, v), d => encStr k ++ 0x3a :: (sp ++ write nl sp v d)
end

/-- `json.Marshal`. -/
def marshal (v : JVal) : Bytes := write (fun _ => []) [] v 0

/-- `json.MarshalIndent(v, "", indent)`. -/
def marshalIndent (indent : Bytes) (v : JVal) : Bytes := write (fun d => 0x0a :: (List.replicate d indent).flatten) [0x20] v 0

/-! ## The structs -/

/-- An unsigned number. -/
def uintVal (n : Nat) : JVal := .num (decimal n)

/-- protocol.go:14-30 `Protocol` (with `ProtocolVersion` at 8-11) and its `json` tags. -/
def protocolVal (p : FullProtocol) : JVal :=
  .obj [(nTxFeePerByte, uintVal p.params.txFeePerByte.toNat), (nTxFeeFixed, uintVal p.params.txFeeFixed.toNat), (nMaxTxSize, uintVal p.params.maxTxSize.toNat),
    (nProtocolVersion, .obj [(nMajor, uintVal p.major.toNat), (nMinor, uintVal p.minor.toNat)]), (nMinUTxOValue, uintVal p.params.minUTXOValue.toNat)]

/-- A number with `omitempty`: zero is left out. -/
def omitZero (name : Bytes) (n : Nat) : List (Bytes × JVal) := if n = 0 then [] else [(name, uintVal n)]

/-- types.go:4-8 `NetworkTip`. -/
def tipVal (t : NetworkTip) : JVal := .obj (omitZero nSlot t.slot.toNat ++ (omitZero nEpoch t.epoch.toNat ++ omitZero nBlock t.block.toNat))

/-- The alphabet of `base64.StdEncoding`. -/
def b64Char (n : Nat) : UInt8 :=
  if n < 26 then UInt8.ofNat (65 + n) else if n < 52 then UInt8.ofNat (71 + n) else if n < 62 then UInt8.ofNat (n - 4) else if n = 62 then 43 else 47

/-- `base64.StdEncoding.Encode`. -/
def b64Encode : Bytes → Bytes
  | [] => []
  | [a] => [b64Char (a.toNat / 4), b64Char (a.toNat % 4 * 16), 61, 61]
  | [a, b] => [b64Char (a.toNat / 4), b64Char (a.toNat % 4 * 16 + b.toNat / 16), b64Char (b.toNat % 16 * 4), 61]
  | a :: b :: c :: s =>
    b64Char (a.toNat / 4) :: b64Char (a.toNat % 4 * 16 + b.toNat / 16) :: b64Char (b.toNat % 16 * 4 + c.toNat / 64) :: b64Char (c.toNat % 64) :: b64Encode s

/-- "Marshaler": the name of the embedded interface at tx_input_output.go:11. -/
def nMarshaler : Bytes := asc ['M','a','r','s','h','a','l','e','r']
/-- "TxHash", tx_input_output.go:13. -/
def nTxHash : Bytes := asc ['T','x','H','a','s','h']
/-- "Index", tx_input_output.go:14. -/
def nIndex : Bytes := asc ['I','n','d','e','x']
/-- "Amount", tx_input_output.go:15. -/
def nAmount : Bytes := asc ['A','m','o','u','n','t']

/-- tx_input_output.go:10-16 `TxInput`: no tags; the embedded interface is a field, and nil; bytes are written in base64. (A nil `TxHash` would be null; the constructor
makes none.) -/
def inputVal (i : TxInput) : JVal :=
  .obj [(nMarshaler, .null), (nTxHash, .str (b64Encode i.txHash)), (nIndex, uintVal i.index.toNat), (nAmount, uintVal i.amount.toNat)]

/-- A slice of inputs that is nil if it is empty, as the clients return it. -/
def inputsVal (is : List TxInput) : JVal := if is = [] then .null else .arr (is.map inputVal)

/-! ## Reading inputs -/

/-- The value of a character of base64. -/
def b64Val (c : UInt8) : Option Nat :=
  if 65 ≤ c ∧ c ≤ 90 then some (c.toNat - 65) else if 97 ≤ c ∧ c ≤ 122 then some (c.toNat - 71) else if 48 ≤ c ∧ c ≤ 57 then some (c.toNat + 4)
  else if c = 43 then some 62 else if c = 47 then some 63 else none

/-- `base64.StdEncoding.Decode` after line breaks are passed over: groups of four, padding only at the end; the bits of the last group that are not used are not looked at. -/
def b64Groups : Bytes → Option Bytes
  | [] => some []
  | w :: x :: y :: z :: s =>
    match b64Val w, b64Val x with
    | some i, some j =>
      if y = 61 then (if z = 61 ∧ s = [] then some [UInt8.ofNat (i * 4 + j / 16)] else none)
      else match b64Val y with
        | none => none
        | some k =>
          if z = 61 then (if s = [] then some [UInt8.ofNat (i * 4 + j / 16), UInt8.ofNat (j * 16 + k / 4)] else none)
          else match b64Val z, b64Groups s with
            | some l, some r => some (UInt8.ofNat (i * 4 + j / 16) :: UInt8.ofNat (j * 16 + k / 4) :: UInt8.ofNat (k * 64 + l) :: r)
            | _, _ => none
    | _, _ => none
  | _ => none

/-- `base64.StdEncoding.Decode`. -/
def b64Decode (s : Bytes) : Option Bytes := b64Groups (s.filter fun c => c ≠ 10 ∧ c ≠ 13)

/-- `literalStore` with a slice of bytes as the target. `encoding/json` also takes an array of numbers for a slice of bytes; here that is an error. -/
def storeBytes (old : Bytes) (v : JVal) : Bytes × Option String :=
  match v with
  | .null => ([], none)
  | .str s => match b64Decode s with
    | some b => (b, none)
    | none => (old, some "illegal base64 data")
  | _ => (old, some typeError)

/-- tx_input_output.go:10-16 `TxInput`: one member of the object. An interface with methods takes no value but null. -/
def storeInputMember (st : Out TxInput) (m : Bytes × JVal) : Out TxInput :=
  let i := st.value
  if keyMatches nMarshaler m.1 then
    ⟨i, saveError st.err (match m.2 with
      | .null => none
      | _ => some typeError)⟩
  else if keyMatches nTxHash m.1 then
    let (b, e) := storeBytes i.txHash m.2
    ⟨{ i with txHash := b }, saveError st.err e⟩
  else if keyMatches nIndex m.1 then
    let (n, e) := storeUint 16 i.index.toNat m.2
    ⟨{ i with index := UInt16.ofNat n }, saveError st.err e⟩
  else if keyMatches nAmount m.1 then
    let (n, e) := storeUint 64 i.amount.toNat m.2
    ⟨{ i with amount := UInt64.ofNat n }, saveError st.err e⟩
  else st

/-- A value for an element of type `TxInput`. -/
def storeInput (st : Out TxInput) (v : JVal) : Out TxInput :=
  match v with
  | .null => st
  | .obj ms => ms.foldl storeInputMember st
  | _ => ⟨st.value, saveError st.err (some typeError)⟩

/-- The elements of an array, into new elements of a slice. -/
def storeInputs (err : Option String) : List JVal → Out (List TxInput)
  | [] => ⟨[], err⟩
  | v :: vs =>
    let o := storeInput ⟨⟨[], 0, 0⟩, err⟩ v
    let r := storeInputs o.err vs
    ⟨o.value :: r.value, r.err⟩

/-- `json.Unmarshal(data, &is)` with `is` a nil `[]TxInput`. -/
def unmarshalInputs (data : Bytes) : Out (List TxInput) :=
  match parse data with
  | none => ⟨[], some "invalid JSON"⟩
  | some .null => ⟨[], none⟩
  | some (.arr vs) => storeInputs none vs
  | some _ => ⟨[], some typeError⟩

/-! ## Outputs -/

/-- "Address", tx_input_output.go:44. -/
def nAddress : Bytes := asc ['A','d','d','r','e','s','s']

/-- tx_input_output.go:42-46 `TxOutput`; `address` is what is written for the address, whose types have no method for JSON: the object of the struct's fields, left open here. The
field `_` is not exported. -/
def outputVal (address : JVal) (amount : UInt64) : JVal := .obj [(nAddress, address), (nAmount, uintVal amount.toNat)]

/-- tx_input_output.go:42-46 `TxOutput`: one member of the object. The state is the amount; the address stays nil, as an interface with methods takes no value but null. -/
def storeOutputMember (st : Out UInt64) (m : Bytes × JVal) : Out UInt64 :=
  if keyMatches nAddress m.1 then
    ⟨st.value, saveError st.err (match m.2 with
      | .null => none
      | _ => some typeError)⟩
  else if keyMatches nAmount m.1 then
    let (n, e) := storeUint 64 st.value.toNat m.2
    ⟨UInt64.ofNat n, saveError st.err e⟩
  else st

/-- `json.Unmarshal(data, o)` with `o` an empty `TxOutput`. -/
def unmarshalOutput (data : Bytes) : Out UInt64 :=
  match parse data with
  | none => ⟨0, some "invalid JSON"⟩
  | some .null => ⟨0, none⟩
  | some (.obj ms) => ms.foldl storeOutputMember ⟨0, none⟩
  | some _ => ⟨0, some typeError⟩

end Cardano.Json
