import Verif.Go.Basic
/-!
# Model of `internal/bech32/bech32.go`

Go strings are modelled as byte lists. `strings.ToLower/ToUpper` are modelled on ASCII; a string holding a non-ASCII
byte is rejected by the model at the character checks (see DESIGN.md, "Simplifications").
-/
set_option autoImplicit false

namespace Cardano.Bech32

/-- bech32.go:12 `charset = "qpzry9x8gf2tvdw0s3jn54khce6mua7l"`. -/
def charset : Bytes := asc
  ['q','p','z','r','y','9','x','8','g','f','2','t','v','d','w','0',
   's','3','j','n','5','4','k','h','c','e','6','m','u','a','7','l']

/-- bech32.go:14 `generator`. -/
def generator : List UInt32 := [0x3b6a57b2, 0x26508e6d, 0x1ea119fa, 0x3d4233dd, 0x2a1462b3]

/-- bech32.go:22-27, the inner loop: `bit := top >> i & 1; if bit == 1 { chk ^= generator[i] }` for i = 0..4
(`i` is the position in `generator`). -/
def xorGen (top : UInt32) : Nat → List UInt32 → UInt32 → UInt32
  | _, [], chk => chk
  | i, g :: gs, chk =>
    xorGen top (i + 1) gs (if goShr32 top i &&& 1 = 1 then chk ^^^ g else chk)

/-- bech32.go:18-28, one iteration of the outer loop. -/
def polymodStep (chk : UInt32) (v : UInt8) : UInt32 :=
  let top := goShr32 chk 25
  let chk := goShl32 (chk &&& 0x1ffffff) 5
  let chk := chk ^^^ v.toUInt32
  xorGen top 0 generator chk

/-- bech32.go:16-30 `polymod`. -/
def polymod (values : Bytes) : UInt32 := values.foldl polymodStep 1

/-- bech32.go:32-43 `hrpExpand`. -/
def hrpExpand (hrp : Bytes) : Bytes :=
  let h := toLower hrp
  h.map (fun c => goShr8 c 5) ++ [0] ++ h.map (fun c => c &&& 31)

/-- bech32.go:45-47 `verifyChecksum`. -/
def verifyChecksum (hrp data : Bytes) : Bool := polymod (hrpExpand hrp ++ data) == 1

/-- bech32.go:49-59 `createChecksum`; `p` ranges over `0..5`. -/
def createChecksum (hrp data : Bytes) : Bytes :=
  let values := hrpExpand hrp ++ data
  let values := values ++ [0, 0, 0, 0, 0, 0]
  let mod := polymod values ^^^ 1
  (List.range 6).map fun p => (goShr32 mod (5 * (5 - p))).toUInt8 &&& 31

/-- bech32.go:65 `maxv := byte(1<<tobits - 1)` (byte arithmetic). -/
def maxv (tobits : Nat) : UInt8 := goShl8 1 tobits - 1

/-- bech32.go:72-75, inner loop `for bits >= tobits { bits -= tobits; ret = append(ret, byte(acc>>bits)&maxv) }`.
`bits` is a Go byte that stays below `frombits + tobits ≤ 16` in both uses; it is a `Nat` here. The guard
`0 < tobits` only serves termination (the code is called with `tobits` 5 and 8). -/
def drain (tobits : Nat) (acc : UInt32) (bits : Nat) (ret : Bytes) : Nat × Bytes :=
  if _h : 0 < tobits ∧ tobits ≤ bits then
    drain tobits acc (bits - tobits) (ret ++ [(goShr32 acc (bits - tobits)).toUInt8 &&& maxv tobits])
  else (bits, ret)
termination_by bits
decreasing_by omega

/-- bech32.go:66-76, the loop over `data`, with the loop variables `acc`, `bits`, `ret`. -/
def convertLoop (frombits tobits : Nat) : Bytes → UInt32 → Nat → Bytes → Res (UInt32 × Nat × Bytes)
  | [], acc, bits, ret => .ok (acc, bits, ret)
  | value :: rest, acc, bits, ret =>
    if goShr8 value frombits ≠ 0 then .err "invalid data range"
    else
      let acc := goShl32 acc frombits ||| value.toUInt32
      let bits := bits + frombits
      let (bits, ret) := drain tobits acc bits ret
      convertLoop frombits tobits rest acc bits ret

/-- bech32.go:61-87 `convertBits`. -/
def convertBits (data : Bytes) (frombits tobits : Nat) (pad : Bool) : Res Bytes :=
  match convertLoop frombits tobits data 0 0 [] with
  | .err m => .err m
  | .panic => .panic
  | .ok (acc, bits, ret) =>
    if pad then
      if bits > 0 then .ok (ret ++ [(goShl32 acc (tobits - bits)).toUInt8 &&& maxv tobits]) else .ok ret
    else if bits ≥ frombits then .err "illegal zero padding"
    else if (goShl32 acc (tobits - bits)).toUInt8 &&& maxv tobits ≠ 0 then .err "non-zero padding"
    else .ok ret

/-- `charset[p]` (bech32.go:111,114). Out of range would panic; every `p` written is `< 32`
(`Props`: `Encode` never reaches the panic). -/
def charAt (p : UInt8) : Res UInt8 :=
  match charset[p.toNat]? with
  | some c => .ok c
  | none => .panic

/-- The loops of bech32.go:110-115 writing `charset[p]` for each symbol. -/
def writeSyms : Bytes → Res Bytes
  | [] => .ok []
  | p :: ps => do
    let c ← charAt p
    let cs ← writeSyms ps
    return c :: cs

/-- bech32.go:97-101 / 131-135: every character of the human-readable part is in 33..126. A byte `≥ 128` starts (or is)
a rune `≥ 128`, which the Go code rejects as well. -/
def hrpCharsOk (hrp : Bytes) : Bool := hrp.all fun c => 33 ≤ c && c ≤ 126

/-- bech32.go:89-120 `Encode`. -/
def Encode (hrp : Bytes) (data : Bytes) : Res Bytes := do
  let values ← convertBits data 8 5 true
  if hrp.length < 1 then .err "invalid HRP"
  else if ! hrpCharsOk hrp then .err "invalid HRP character"
  else if toUpper hrp ≠ hrp ∧ toLower hrp ≠ hrp then .err "mixed case HRP"
  else
    let lower : Bool := toLower hrp = hrp
    let hrp := toLower hrp
    let body ← writeSyms values
    let chk ← writeSyms (createChecksum hrp values)
    let ret := hrp ++ [49] ++ body ++ chk
    if lower then return ret else return toUpper ret

/-- `strings.LastIndex(s, "1")` (bech32.go:126); `none` is Go's -1. -/
def lastIndex1 : Bytes → Option Nat
  | [] => none
  | c :: cs => match lastIndex1 cs with
    | some i => some (i + 1)
    | none => if c = 49 then some 0 else none

/-- `strings.IndexRune(charset, c)` (bech32.go:138) for a byte. -/
def charIndex (c : UInt8) : Option UInt8 :=
  match charset.findIdx? (· == c) with
  | some i => some (UInt8.ofNat i)
  | none => none

/-- bech32.go:137-143: map data characters to 5-bit symbols. -/
def readSyms : Bytes → Res Bytes
  | [] => .ok []
  | c :: cs => match charIndex c with
    | none => .err "invalid character data part"
    | some d => do
      let ds ← readSyms cs
      return d :: ds

/-- bech32.go:122-152 `Decode`. -/
def Decode (s : Bytes) : Res (Bytes × Bytes) :=
  if toLower s ≠ s ∧ toUpper s ≠ s then .err "mixed case"
  else match lastIndex1 s with
    | none => .err "separator '1' at invalid position"
    | some pos =>
      if pos < 1 ∨ pos + 7 > s.length then .err "separator '1' at invalid position"
      else
        let hrp := s.take pos
        if ! hrpCharsOk hrp then .err "invalid character human-readable part"
        else do
          let s := toLower s
          let data ← readSyms (s.drop (pos + 1))
          if ! verifyChecksum hrp data then .err "invalid checksum"
          else
            let data ← convertBits (data.take (data.length - 6)) 5 8 false
            return (hrp, data)

end Cardano.Bech32
