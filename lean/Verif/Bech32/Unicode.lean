import Verif.Bech32.Model
import Verif.Address.Model
/-!
# `internal/bech32/bech32.go` on arbitrary Go strings

`Bech32/Model` maps letters byte by byte and so describes the code on ASCII strings. Here the strings are sequences of runes as in Go: `range` loops and
`strings.ToLower/ToUpper` decode UTF-8, an invalid byte is U+FFFD, and the case tables of the package `unicode` are parameters of which only the entries
that matter are known.
-/
set_option autoImplicit false

namespace Cardano.Bech32.Uni

/-- `utf8.RuneError`. -/
def runeError : Nat := 0xfffd

/-- A continuation byte. -/
def cont (b : UInt8) : Bool := 0x80 ≤ b && b ≤ 0xbf

/-- `utf8.DecodeRuneInString` on `b0 :: s` with `b0 ≥ 0x80`: the rune and the number of bytes of `s` it takes. Overlong forms, surrogates and
numbers above 0x10ffff are invalid; an invalid byte is a rune of its own. -/
def decodeMulti (b0 : UInt8) (s : Bytes) : Nat × Nat :=
  if 0xc2 ≤ b0 ∧ b0 ≤ 0xdf then
    match s with
    | b1 :: _ => if cont b1 then ((b0.toNat - 0xc0) * 64 + (b1.toNat - 0x80), 1) else (runeError, 0)
    | _ => (runeError, 0)
  else if 0xe0 ≤ b0 ∧ b0 ≤ 0xef then
    match s with
    | b1 :: b2 :: _ =>
      if cont b1 && cont b2 && (b0 != 0xe0 || 0xa0 ≤ b1) && (b0 != 0xed || b1 ≤ 0x9f) then
        ((b0.toNat - 0xe0) * 4096 + (b1.toNat - 0x80) * 64 + (b2.toNat - 0x80), 2)
      else (runeError, 0)
    | _ => (runeError, 0)
  else if 0xf0 ≤ b0 ∧ b0 ≤ 0xf4 then
    match s with
    | b1 :: b2 :: b3 :: _ =>
      if cont b1 && cont b2 && cont b3 && (b0 != 0xf0 || 0x90 ≤ b1) && (b0 != 0xf4 || b1 ≤ 0x8f) then
        ((b0.toNat - 0xf0) * 262144 + (b1.toNat - 0x80) * 4096 + (b2.toNat - 0x80) * 64 + (b3.toNat - 0x80), 3)
      else (runeError, 0)
    | _ => (runeError, 0)
  else (runeError, 0)

/-- The runes a `range` loop over a string visits. -/
def runes : Bytes → List Nat
  | [] => []
  | b :: s =>
    if b < 0x80 then b.toNat :: runes s
    else (decodeMulti b s).1 :: runes (s.drop (decodeMulti b s).2)
termination_by s => s.length
decreasing_by all_goals simp only [List.length_cons, List.length_drop]; omega

/-- `utf8.EncodeRune`: what is not a code point is written as U+FFFD. -/
def encodeRune (r : Nat) : Bytes :=
  if r < 0x80 then [UInt8.ofNat r]
  else if r < 0x800 then [UInt8.ofNat (0xc0 + r / 64), UInt8.ofNat (0x80 + r % 64)]
  else if r > 0x10ffff ∨ (0xd800 ≤ r ∧ r ≤ 0xdfff) then [0xef, 0xbf, 0xbd]
  else if r < 0x10000 then [UInt8.ofNat (0xe0 + r / 4096), UInt8.ofNat (0x80 + r / 64 % 64), UInt8.ofNat (0x80 + r % 64)]
  else [UInt8.ofNat (0xf0 + r / 262144), UInt8.ofNat (0x80 + r / 4096 % 64), UInt8.ofNat (0x80 + r / 64 % 64), UInt8.ofNat (0x80 + r % 64)]

/-- What is known of `unicode.ToLower` and `unicode.ToUpper`: the ASCII part; of the other runes only U+212A (KELVIN SIGN, lower case `k`) and U+0130
(lower case `i`) have a lower case in ASCII, and U+212A is its own upper case. -/
structure Tables where
  lower : Nat → Nat
  upper : Nat → Nat
  lower_ascii : ∀ r, r < 128 → lower r = if 65 ≤ r ∧ r ≤ 90 then r + 32 else r
  upper_ascii : ∀ r, r < 128 → upper r = if 97 ≤ r ∧ r ≤ 122 then r - 32 else r
  lower_high : ∀ r, 128 ≤ r → lower r < 128 → r = 0x212a ∨ r = 0x130
  lower_kelvin : lower 0x212a = 107
  lower_dotted : lower 0x130 = 105
  upper_kelvin : upper 0x212a = 0x212a

/-- `strings.Map`, for a function without negative values; `strings.ToLower` and `ToUpper` are this with `unicode.ToLower` and `unicode.ToUpper`
(their shortcut for ASCII strings has the same result, `mapRunes_ascii`). -/
def mapRunes (f : Nat → Nat) (s : Bytes) : Bytes := (runes s).flatMap fun r => encodeRune (f r)

/-- bech32.go:32-43 `hrpExpand`. -/
def hrpExpand (T : Tables) (hrp : Bytes) : Bytes :=
  let h := mapRunes T.lower hrp
  h.map (fun c => goShr8 c 5) ++ [0] ++ h.map (fun c => c &&& 31)

/-- bech32.go:45-47 `verifyChecksum`. -/
def verifyChecksum (T : Tables) (hrp data : Bytes) : Bool := polymod (hrpExpand T hrp ++ data) == 1

/-- bech32.go:49-59 `createChecksum`. -/
def createChecksum (T : Tables) (hrp data : Bytes) : Bytes :=
  let values := hrpExpand T hrp ++ data
  let values := values ++ [0, 0, 0, 0, 0, 0]
  let mod := polymod values ^^^ 1
  (List.range 6).map fun p => (goShr32 mod (5 * (5 - p))).toUInt8 &&& 31

/-- bech32.go:97-101 / 131-135: every rune of the human-readable part is in 33..126. -/
def hrpRunesOk (hrp : Bytes) : Bool := (runes hrp).all fun c => 33 ≤ c && c ≤ 126

/-- `strings.IndexRune(charset, c)` (bech32.go:138): `charset` is ASCII, so a rune above 127 is not in it. -/
def runeIndex (c : Nat) : Option UInt8 := if c < 128 then charIndex (UInt8.ofNat c) else none

/-- bech32.go:137-143. -/
def readRunes : List Nat → Res Bytes
  | [] => .ok []
  | c :: cs => match runeIndex c with
    | none => .err "invalid character data part"
    | some d => do
      let ds ← readRunes cs
      return d :: ds

/-- bech32.go:89-120 `Encode`. -/
def Encode (T : Tables) (hrp : Bytes) (data : Bytes) : Res Bytes := do
  let values ← convertBits data 8 5 true
  if hrp.length < 1 then .err "invalid HRP"
  else if ! hrpRunesOk hrp then .err "invalid HRP character"
  else if mapRunes T.upper hrp ≠ hrp ∧ mapRunes T.lower hrp ≠ hrp then .err "mixed case HRP"
  else
    let lower : Bool := mapRunes T.lower hrp = hrp
    let hrp := mapRunes T.lower hrp
    let body ← writeSyms values
    let chk ← writeSyms (createChecksum T hrp values)
    let ret := hrp ++ [49] ++ body ++ chk
    if lower then return ret else return mapRunes T.upper ret

/-- bech32.go:122-152 `Decode`. The slice expression `data[:len(data)-6]` panics when there are fewer than six symbols. -/
def Decode (T : Tables) (s : Bytes) : Res (Bytes × Bytes) :=
  if mapRunes T.lower s ≠ s ∧ mapRunes T.upper s ≠ s then .err "mixed case"
  else match lastIndex1 s with
    | none => .err "separator '1' at invalid position"
    | some pos =>
      if pos < 1 ∨ pos + 7 > s.length then .err "separator '1' at invalid position"
      else
        let hrp := s.take pos
        if ! hrpRunesOk hrp then .err "invalid character human-readable part"
        else do
          let s := mapRunes T.lower s
          let data ← readRunes (runes (s.drop (pos + 1)))
          if ! verifyChecksum T hrp data then .err "invalid checksum"
          else if data.length < 6 then .panic
          else
            let data ← convertBits (data.take (data.length - 6)) 5 8 false
            return (hrp, data)

/-- address.go:32-46 `NewAddress`. -/
def NewAddress (T : Tables) (strict : Bool) (raw spare : Bytes) : Res Address :=
  if Addr.hasPrefix raw (asc ['a','d','d','r']) || Addr.hasPrefix raw (asc ['s','t','a','k','e']) then
    match Decode T raw with
    | .ok (_, data) => Addr.NewAddressFromBytes strict data spare
    | .err m => .err m
    | .panic => .panic
  else Addr.NewAddressFromBytes strict (Base58.decode raw) spare

end Cardano.Bech32.Uni
