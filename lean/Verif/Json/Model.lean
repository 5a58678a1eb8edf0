import Verif.Json.Spec
import Verif.Node.Model
/-!
# Model of `encoding/json.Unmarshal` (Go standard library) into structs of unsigned numbers,
called at protocol/protocol.go:45 and node/cardano-cli.go:51, 97

The library first checks the whole text (`checkValid`) and only then stores values; storing continues after a value of the wrong type and the first
such error is returned at the end. Here the text is parsed to a tree (`JVal`), then the tree is stored.
Bytes above 127 in strings are kept as they are; the library replaces invalid UTF-8 by U+FFFD. Strings are only compared with
field names, and neither matches one.
-/
set_option autoImplicit false

namespace Cardano.Json

/-! ## Reading -/

/-- `isSpace` of package `encoding/json`. -/
def isWs (c : UInt8) : Bool := c = 0x20 || c = 0x09 || c = 0x0a || c = 0x0d

/-- State `stateBeginValue` and others passing over whitespace. -/
def skipWs : Bytes → Bytes
  | [] => []
  | c :: s => if isWs c then skipWs s else c :: s

/-- A digit, as tested in `state0` and `state1`. -/
def isDigit (c : UInt8) : Bool := 48 ≤ c && c ≤ 57

/-- The digits in front. -/
def spanDigits : Bytes → Bytes × Bytes
  | [] => ([], [])
  | c :: s => if isDigit c then (c :: (spanDigits s).1, (spanDigits s).2) else ([], c :: s)

/-- States `stateDot`, `stateDot0` of the scanner. -/
def scanFrac (s : Bytes) : Option (Bytes × Bytes) :=
  match s with
  | [] => some ([], [])
  | c :: r => if c = 46 then (if (spanDigits r).1 = [] then none else some (c :: (spanDigits r).1, (spanDigits r).2)) else some ([], s)

/-- States `stateE`, `stateESign`, `stateE0`. -/
def scanExp (s : Bytes) : Option (Bytes × Bytes) :=
  match s with
  | [] => some ([], [])
  | c :: r =>
    if c = 101 ∨ c = 69 then
      let (sign, r') := match r with
        | [] => (([] : Bytes), ([] : Bytes))
        | x :: r1 => if x = 43 ∨ x = 45 then ([x], r1) else ([], r)
      if (spanDigits r').1 = [] then none else some (c :: (sign ++ (spanDigits r').1), (spanDigits r').2)
    else some ([], s)

/-- States `state0`, `state1`. -/
def scanInt (s : Bytes) : Option (Bytes × Bytes) :=
  match s with
  | [] => none
  | c :: r => if c = 48 then some ([48], r) else if isDigit c then some (c :: (spanDigits r).1, (spanDigits r).2) else none

/-- A number literal, read as far as possible. -/
def scanNum (s : Bytes) : Option (Bytes × Bytes) :=
  let (minus, s1) := match s with
    | [] => (([] : Bytes), ([] : Bytes))
    | c :: r => if c = 45 then ([c], r) else ([], s)
  match scanInt s1 with
  | none => none
  | some (i, s2) => match scanFrac s2 with
    | none => none
    | some (f, s3) => match scanExp s3 with
      | none => none
      | some (e, s4) => some (minus ++ (i ++ (f ++ e)), s4)

/-- `getu4` after the backslash and the letter u. -/
def hex4 (a b c d : UInt8) : Option Nat :=
  match hexDigit a, hexDigit b, hexDigit c, hexDigit d with
  | some i, some j, some k, some l => some (((i * 16 + j) * 16 + k) * 16 + l)
  | _, _, _, _ => none

/-- What a string is made of: bytes (spelled out or escaped) and `\uXXXX` units. -/
inductive StrUnit where
  | byte (c : UInt8)
  | u16 (n : Nat)

/-- A string after its opening quotation mark up to its closing one: `stateInString`, `stateInStringEsc`, `stateInStringEscU...`. -/
def scanUnits : Bytes → Option (List StrUnit × Bytes)
  | [] => none
  | c :: r =>
    if c = 0x22 then some ([], r)
    else if c = 0x5c then
      match r with
      | [] => none
      | e :: r1 =>
        if e = 0x75 then
          match r1 with
          | a :: b :: c :: d :: r2 => match hex4 a b c d with
            | none => none
            | some n => (scanUnits r2).map fun p => (.u16 n :: p.1, p.2)
          | _ => none
        else match escChar e with
          | none => none
          | some x => (scanUnits r1).map fun p => (.byte x :: p.1, p.2)
    else if c < 0x20 then none
    else (scanUnits r).map fun p => (.byte c :: p.1, p.2)

/-- `utf16.IsSurrogate`. -/
def isSurrogate (n : Nat) : Bool := 0xd800 ≤ n && n < 0xe000

/-- `utf16.DecodeRune` of two units, `none` where it gives U+FFFD. -/
def decodeRune (m n : Nat) : Option Nat :=
  if 0xd800 ≤ m ∧ m < 0xdc00 ∧ 0xdc00 ≤ n ∧ n < 0xe000 then some ((m - 0xd800) * 1024 + (n - 0xdc00) + 0x10000) else none

/-- `unquoteBytes`: a pair of surrogates is one character, any other surrogate is U+FFFD. -/
def unquote : List StrUnit → Bytes
  | [] => []
  | .byte c :: r => c :: unquote r
  | .u16 m :: .u16 n :: r => match decodeRune m n with
    | some x => utf8 x ++ unquote r
    | none => utf8 (if isSurrogate m then 0xfffd else m) ++ unquote (.u16 n :: r)
  | .u16 m :: r => utf8 (if isSurrogate m then 0xfffd else m) ++ unquote r

/-- A string after its opening quotation mark, and what it denotes. -/
def scanStr (s : Bytes) : Option (Bytes × Bytes) := (scanUnits s).map fun p => (unquote p.1, p.2)

/-- Reads the given characters. -/
def scanLit : (lit s : Bytes) → Option Bytes
  | [], s => some s
  | _ :: _, [] => none
  | l :: ls, c :: s => if c = l then scanLit ls s else none

mutual
/-- `stateBeginValue`: a value at the beginning of the text. `d` is the nesting still allowed (`pushParseState`). -/
def pValue : (fuel d : Nat) → Bytes → Option (JVal × Bytes)
  | 0, _, _ => none
  | _ + 1, _, [] => none
  | fuel + 1, d, c :: r =>
    if c = 0x22 then (scanStr r).map fun p => (.str p.1, p.2)
    else if c = 0x5b then
      match d with
      | 0 => none
      | d + 1 => match skipWs r with
        | [] => none
        | x :: r' => if x = 0x5d then some (.arr [], r') else (pElems fuel d r).map fun p => (.arr p.1, p.2)
    else if c = 0x7b then
      match d with
      | 0 => none
      | d + 1 => match skipWs r with
        | [] => none
        | x :: r' => if x = 0x7d then some (.obj [], r') else (pMembers fuel d r).map fun p => (.obj p.1, p.2)
    else if c = 0x6e then (scanLit (asc ['u','l','l']) r).map fun r => (.null, r)
    else if c = 0x74 then (scanLit (asc ['r','u','e']) r).map fun r => (.bool true, r)
    else if c = 0x66 then (scanLit (asc ['a','l','s','e']) r).map fun r => (.bool false, r)
    else (scanNum (c :: r)).map fun p => (.num p.1, p.2)

/-- Elements after `[` or a comma, up to the closing bracket. -/
def pElems : (fuel d : Nat) → Bytes → Option (List JVal × Bytes)
  | 0, _, _ => none
  | fuel + 1, d, s => match pValue fuel d (skipWs s) with
    | none => none
    | some (v, r) => match skipWs r with
      | [] => none
      | c :: r' =>
        if c = 0x2c then (pElems fuel d r').map fun p => (v :: p.1, p.2)
        else if c = 0x5d then some ([v], r') else none

/-- Members after `{` or a comma, up to the closing brace. -/
def pMembers : (fuel d : Nat) → Bytes → Option (List (Bytes × JVal) × Bytes)
  | 0, _, _ => none
  | fuel + 1, d, s => match skipWs s with
    | [] => none
    | q :: s1 => if q ≠ 0x22 then none else match scanStr s1 with
      | none => none
      | some (k, s2) => match skipWs s2 with
        | [] => none
        | col :: s3 => if col ≠ 0x3a then none else match pValue fuel d (skipWs s3) with
          | none => none
          | some (v, r) => match skipWs r with
            | [] => none
            | c :: r' =>
              if c = 0x2c then (pMembers fuel d r').map fun p => ((k, v) :: p.1, p.2)
              else if c = 0x7d then some ([(k, v)], r') else none
end

/-- `checkValid` and the tree it accepts. `maxNestingDepth` is 10000. -/
def parse (data : Bytes) : Option JVal :=
  match pValue data.length 10000 (skipWs data) with
  | some (v, r) => if skipWs r = [] then some v else none
  | none => none

end Cardano.Json
