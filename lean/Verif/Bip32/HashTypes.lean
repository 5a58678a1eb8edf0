import Verif.Go.Basic
/-!
# Model of the hash constructors of `crypto/crypto.go`
-/
set_option autoImplicit false

namespace Cardano.HashTypes

/-- crypto.go:10-24, the lengths. -/
def Ed25519KeyHashLen : Nat := 28
def ScriptHashLen : Nat := 28
def TransactionHashLen : Nat := 32
def GenesisDelegateHashLen : Nat := 28
def GenesisHashLen : Nat := 28
def MetadataHashLen : Nat := 32
def VRFKeyHashLen : Nat := 32
def BlockHashLen : Nat := 32
def VRFVKeyLen : Nat := 32
def KESVKeyLen : Nat := 32

/-- `copy(res[:], b)` into a zeroed array of `n` bytes. -/
def copyInto (n : Nat) (b : Bytes) : Bytes := b.take n ++ List.replicate (n - b.length) 0

/-- crypto.go:38-47 `Blake2b224`; `sum` is `blake2b.New(28, nil)` of the library, then `Write` and `Sum(nil)`. (`log.Fatalf`, when the library refuses the length, is left out: it
does not refuse 28 or 32.) -/
def Blake2b224 (sum : Bytes → Bytes) (data : Bytes) : Bytes := copyInto 28 ((sum data).take 28)
/-- crypto.go:50-59 `Blake2b256`, with `blake2b.New(32, nil)`. -/
def Blake2b256 (sum : Bytes → Bytes) (data : Bytes) : Bytes := copyInto 32 ((sum data).take 32)

/-- The body shared by the ten constructors (each is written out in the source). -/
def fromBytes (n : Nat) (b : Bytes) : Res Bytes :=
  if b.length ≠ n then .err "unexpected bytes" else .ok (copyInto n (b.take n))

/-- crypto.go:62-69. -/
def Ed25519KeyHashFromBytes := fromBytes Ed25519KeyHashLen
/-- crypto.go:72-79. -/
def ScriptHashFromBytes := fromBytes ScriptHashLen
/-- crypto.go:82-89. -/
def TransactionHashFromBytes := fromBytes TransactionHashLen
/-- crypto.go:92-99. -/
def GenesisDelegateHashFromBytes := fromBytes GenesisDelegateHashLen
/-- crypto.go:102-109. -/
def GenesisHashFromBytes := fromBytes GenesisHashLen
/-- crypto.go:112-119. -/
def MetadataHashFromBytes := fromBytes MetadataHashLen
/-- crypto.go:122-129. -/
def VRFKeyHashFromBytes := fromBytes VRFKeyHashLen
/-- crypto.go:132-139. -/
def BlockHashFromBytes := fromBytes BlockHashLen
/-- crypto.go:142-149. -/
def VRFVKeyFromBytes := fromBytes VRFVKeyLen
/-- crypto.go:152-159. -/
def KESVKeyFromBytes := fromBytes KESVKeyLen

end Cardano.HashTypes
