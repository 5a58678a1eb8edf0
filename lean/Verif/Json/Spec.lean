import Verif.Go.Basic
/-!
# JSON texts (RFC 8259) as a grammar

Specification: nothing here mentions the decoder. As the decoder of Go does, strings may contain any byte from 0x20 on; bytes above 127 stand for
themselves here. Nesting is limited by the first index.
-/
set_option autoImplicit false

namespace Cardano.Json

/-- A JSON value. Numbers keep their spelling, strings and names are what they denote, members are in the order of the text. -/
inductive JVal where
  | null
  | bool (b : Bool)
  | num (lit : Bytes)
  | str (s : Bytes)
  | arr (vs : List JVal)
  | obj (ms : List (Bytes × JVal))

/-- Insignificant whitespace: any number of spaces, tabs, line feeds, carriage returns. -/
def Ws (w : Bytes) : Prop := ∀ c ∈ w, c = 0x20 ∨ c = 0x09 ∨ c = 0x0a ∨ c = 0x0d

/-- A decimal digit. -/
def Digit (c : UInt8) : Prop := 48 ≤ c.toNat ∧ c.toNat ≤ 57

/-- `int`: zero, or digits not starting with zero. -/
def IntPart (t : Bytes) : Prop := t = [48] ∨ ∃ c r, t = c :: r ∧ Digit c ∧ c ≠ 48 ∧ ∀ x ∈ r, Digit x

/-- `[ frac ]`. -/
def FracPart (t : Bytes) : Prop := t = [] ∨ ∃ r, t = 46 :: r ∧ r ≠ [] ∧ ∀ x ∈ r, Digit x

/-- `[ exp ]`. -/
def ExpPart (t : Bytes) : Prop :=
  t = [] ∨ ∃ e sign r, t = e :: (sign ++ r) ∧ (e = 101 ∨ e = 69) ∧ (sign = [] ∨ sign = [43] ∨ sign = [45]) ∧ r ≠ [] ∧ ∀ x ∈ r, Digit x

/-- `number = [ minus ] int [ frac ] [ exp ]`. -/
def NumText (t : Bytes) : Prop :=
  ∃ minus i f e, t = minus ++ (i ++ (f ++ e)) ∧ (minus = [] ∨ minus = [45]) ∧ IntPart i ∧ FracPart f ∧ ExpPart e

/-- The character a two-character escape stands for. -/
def escChar (c : UInt8) : Option UInt8 :=
  if c = 0x22 then some 0x22 else if c = 0x5c then some 0x5c else if c = 0x2f then some 0x2f else if c = 0x62 then some 0x08
  else if c = 0x66 then some 0x0c else if c = 0x6e then some 0x0a else if c = 0x72 then some 0x0d else if c = 0x74 then some 0x09 else none

/-- Value of a hexadecimal digit. -/
def hexDigit (c : UInt8) : Option Nat :=
  if 48 ≤ c ∧ c ≤ 57 then some (c.toNat - 48) else if 97 ≤ c ∧ c ≤ 102 then some (c.toNat - 87)
  else if 65 ≤ c ∧ c ≤ 70 then some (c.toNat - 55) else none

/-- Four hexadecimal digits. -/
def Hex4 (t : Bytes) (n : Nat) : Prop :=
  ∃ a b c d i j k l, t = [a, b, c, d] ∧ hexDigit a = some i ∧ hexDigit b = some j ∧ hexDigit c = some k ∧ hexDigit d = some l ∧
    n = ((i * 16 + j) * 16 + k) * 16 + l

def HighSurrogate (n : Nat) : Prop := 0xd800 ≤ n ∧ n < 0xdc00
def LowSurrogate (n : Nat) : Prop := 0xdc00 ≤ n ∧ n < 0xe000

/-- UTF-8 (RFC 3629). -/
def utf8 (n : Nat) : Bytes :=
  if n < 0x80 then [UInt8.ofNat n]
  else if n < 0x800 then [UInt8.ofNat (0xc0 + n / 64), UInt8.ofNat (0x80 + n % 64)]
  else if n < 0x10000 then [UInt8.ofNat (0xe0 + n / 4096), UInt8.ofNat (0x80 + n / 64 % 64), UInt8.ofNat (0x80 + n % 64)]
  else [UInt8.ofNat (0xf0 + n / 262144), UInt8.ofNat (0x80 + n / 4096 % 64), UInt8.ofNat (0x80 + n / 64 % 64), UInt8.ofNat (0x80 + n % 64)]

/-- `StrText s t`: between quotation marks, the text `t` denotes the string `s`. A surrogate that is not part of a pair denotes U+FFFD. -/
inductive StrText : Bytes → Bytes → Prop
  | nil : StrText [] []
  | plain (c : UInt8) (s t : Bytes) (h0 : 0x20 ≤ c.toNat) (h1 : c ≠ 0x22) (h2 : c ≠ 0x5c) (h : StrText s t) : StrText (c :: s) (c :: t)
  | esc (c x : UInt8) (s t : Bytes) (hc : escChar c = some x) (h : StrText s t) : StrText (x :: s) (0x5c :: c :: t)
  | unicode (u : Bytes) (n : Nat) (s t : Bytes) (hu : Hex4 u n) (hn : ¬ HighSurrogate n ∧ ¬ LowSurrogate n) (h : StrText s t) :
      StrText (utf8 n ++ s) (0x5c :: 0x75 :: (u ++ t))
  | pair (u v : Bytes) (m n : Nat) (s t : Bytes) (hu : Hex4 u m) (hv : Hex4 v n) (hm : HighSurrogate m) (hn : LowSurrogate n) (h : StrText s t) :
      StrText (utf8 (0x10000 + (m - 0xd800) * 0x400 + (n - 0xdc00)) ++ s) (0x5c :: 0x75 :: (u ++ (0x5c :: 0x75 :: (v ++ t))))
  | lone (u : Bytes) (m : Nat) (s t : Bytes) (hu : Hex4 u m) (hm : HighSurrogate m ∨ LowSurrogate m)
      (hl : ¬ (HighSurrogate m ∧ ∃ v n r, t = 0x5c :: 0x75 :: (v ++ r) ∧ Hex4 v n ∧ LowSurrogate n)) (h : StrText s t) :
      StrText (utf8 0xfffd ++ s) (0x5c :: 0x75 :: (u ++ t))

mutual
/-- `ValText d v t`: the text `t` (without whitespace around it) is the value `v`, nested at most `d` deep. -/
inductive ValText : Nat → JVal → Bytes → Prop
  | null (d : Nat) : ValText d .null (asc ['n','u','l','l'])
  | tru (d : Nat) : ValText d (.bool true) (asc ['t','r','u','e'])
  | fls (d : Nat) : ValText d (.bool false) (asc ['f','a','l','s','e'])
  | num (d : Nat) (t : Bytes) (h : NumText t) : ValText d (.num t) t
  | str (d : Nat) (s t : Bytes) (h : StrText s t) : ValText d (.str s) (0x22 :: (t ++ [0x22]))
  | arr0 (d : Nat) (w : Bytes) (hw : Ws w) : ValText (d + 1) (.arr []) (0x5b :: (w ++ [0x5d]))
  | arr (d : Nat) (vs : List JVal) (t : Bytes) (h : ElemsText d vs t) : ValText (d + 1) (.arr vs) (0x5b :: (t ++ [0x5d]))
  | obj0 (d : Nat) (w : Bytes) (hw : Ws w) : ValText (d + 1) (.obj []) (0x7b :: (w ++ [0x7d]))
  | obj (d : Nat) (ms : List (Bytes × JVal)) (t : Bytes) (h : MembersText d ms t) : ValText (d + 1) (.obj ms) (0x7b :: (t ++ [0x7d]))

/-- One or more values separated by commas, whitespace anywhere around them. -/
inductive ElemsText : Nat → List JVal → Bytes → Prop
  | one (d : Nat) (v : JVal) (w t w' : Bytes) (hw : Ws w) (hw' : Ws w') (h : ValText d v t) : ElemsText d [v] (w ++ (t ++ w'))
  | cons (d : Nat) (v : JVal) (vs : List JVal) (w t w' r : Bytes) (hw : Ws w) (hw' : Ws w') (h : ValText d v t) (hr : ElemsText d vs r) :
      ElemsText d (v :: vs) (w ++ (t ++ (w' ++ 0x2c :: r)))

/-- One or more members separated by commas. -/
inductive MembersText : Nat → List (Bytes × JVal) → Bytes → Prop
  | one (d : Nat) (k : Bytes) (v : JVal) (w kt w1 w2 t w3 : Bytes) (hw : Ws w) (hk : StrText k kt) (h1 : Ws w1) (h2 : Ws w2)
      (h : ValText d v t) (h3 : Ws w3) : MembersText d [(k, v)] (w ++ 0x22 :: (kt ++ 0x22 :: (w1 ++ 0x3a :: (w2 ++ (t ++ w3)))))
  | cons (d : Nat) (k : Bytes) (v : JVal) (ms : List (Bytes × JVal)) (w kt w1 w2 t w3 r : Bytes) (hw : Ws w) (hk : StrText k kt) (h1 : Ws w1)
      (h2 : Ws w2) (h : ValText d v t) (h3 : Ws w3) (hr : MembersText d ms r) :
      MembersText d ((k, v) :: ms) (w ++ 0x22 :: (kt ++ 0x22 :: (w1 ++ 0x3a :: (w2 ++ (t ++ (w3 ++ 0x2c :: r))))))
end

/-- A JSON text: a value with whitespace around it, nested at most 10000 deep. -/
def JsonText (data : Bytes) (v : JVal) : Prop := ∃ w t w', data = w ++ (t ++ w') ∧ Ws w ∧ Ws w' ∧ ValText 10000 v t

end Cardano.Json
