import Verif.Go.Basic
/-!
# Model of `encoding/hex` (Go standard library; called at address/address.go:49, tx/transaction_input.go, node/*)
-/
set_option autoImplicit false

namespace Cardano.Hex

/-- `fromHexChar`. -/
def fromHexChar (c : UInt8) : Option UInt8 :=
  if 48 ≤ c ∧ c ≤ 57 then some (c - 48)
  else if 97 ≤ c ∧ c ≤ 102 then some (c - 97 + 10)
  else if 65 ≤ c ∧ c ≤ 70 then some (c - 65 + 10)
  else none

/-- `hex.Decode`: the bytes decoded before the first problem, and the error if any. -/
def decode : Bytes → Bytes × Option String
  | [] => ([], none)
  | [c] => ([], some (if (fromHexChar c).isNone then "encoding/hex: invalid byte" else "encoding/hex: odd length hex string"))
  | c :: d :: rest =>
    match fromHexChar c, fromHexChar d with
    | some a, some b =>
      let (bs, e) := decode rest
      (((a <<< 4) ||| b) :: bs, e)
    | _, _ => ([], some "encoding/hex: invalid byte")

/-- `hex.EncodeToString`, lower-case digits. -/
def hexDigit (n : UInt8) : UInt8 := if n < 10 then 48 + n else 87 + n
/-- Upper-case variant (not in `encoding/hex`; other tools print it). -/
def hexDigitU (n : UInt8) : UInt8 := if n < 10 then 48 + n else 55 + n

/-- `hex.EncodeToString`. -/
def encode (b : Bytes) : Bytes := b.flatMap fun (x : UInt8) => [hexDigit (x >>> 4), hexDigit (x &&& 15)]

theorem decode_pair (u v : Bool) (x : UInt8) :
    (fromHexChar (if u then hexDigitU (x >>> 4) else hexDigit (x >>> 4)) = some (x >>> 4)) ∧
    (fromHexChar (if v then hexDigitU (x &&& 15) else hexDigit (x &&& 15)) = some (x &&& 15)) ∧
    ((x >>> 4) <<< 4) ||| (x &&& 15) = x := by
  revert x; cases u <;> cases v <;> exact forall_byte (by decide +kernel)

end Cardano.Hex
