import Verif.Go.Basic
/-!
# Model of `bip32/bip32.go`: root keys and derivation

The hash functions (SHA-256, SHA-512, HMAC-SHA-512, PBKDF2, from the Go library) are parameters: every statement holds for
all functions with the right output sizes. Base point multiplication is a parameter here as well; `Bip32/Sign.lean`
supplies the one of the package.
-/
set_option autoImplicit false

namespace Cardano

/-- Hash functions used by `bip32/bip32.go`. -/
structure Hashes where
  sha512 : Bytes → Bytes
  sha256 : Bytes → Bytes
  /-- `hmac.New(sha512.New, key)`, `Write(msg)`, `Sum(nil)` -/
  hmac512 : (key msg : Bytes) → Bytes
  /-- `pbkdf2.Key(password, salt, 4096, 96, sha512.New)` -/
  pbkdf2 : (password salt : Bytes) → Bytes

/-- The output sizes documented for these functions. -/
structure Hashes.Ok (H : Hashes) : Prop where
  sha512 : ∀ m, (H.sha512 m).length = 64
  sha256 : ∀ m, (H.sha256 m).length = 32
  hmac512 : ∀ k m, (H.hmac512 k m).length = 64
  pbkdf2 : ∀ p s, (H.pbkdf2 p s).length = 96

namespace Bip32

/-- `b[i] = f(b[i])`, index in range. -/
def modifyAt (b : Bytes) (i : Nat) (f : UInt8 → UInt8) : Bytes := b.modify i f

/-- bip32.go:25-51 `NewXPrv`. -/
def NewXPrv (H : Hashes) (seed : Bytes) : Res Bytes :=
  if seed.length ≠ 32 then .err "seed needs to be 256 bits long"
  else
    let k := H.sha512 seed
    let k := modifyAt k 0 (· &&& 0xf8)
    let k := modifyAt k 31 (· &&& 0x5f)
    let k := modifyAt k 31 (· ||| 0x40)
    let chain := H.sha256 (0x01 :: seed)
    .ok (k ++ chain)

/-- bip32.go:164-169 `NormalizeBytesForce3rd`; panics on slices shorter than 32 bytes. -/
def NormalizeBytesForce3rd (b : Bytes) : Res Bytes :=
  if b.length < 32 then .panic
  else
    let b := modifyAt b 0 (· &&& 0xf8)
    let b := modifyAt b 31 (· &&& 0x1f)
    let b := modifyAt b 31 (· ||| 0x40)
    .ok b

/-- bip32.go:158-162 `FromBip39Entropy`. -/
def FromBip39Entropy (H : Hashes) (entropy password : Bytes) : Res Bytes :=
  NormalizeBytesForce3rd (H.pbkdf2 password entropy)

/-- bip32.go:53-55 `isHardened`. -/
def isHardened (index : UInt32) : Bool := index ≥ 0x80000000

/-- bip32.go:70-77, first loop of `add28mul8`, over the first 28 byte pairs: output bytes and carry. -/
def mul8Loop : List (UInt8 × UInt8) → UInt16 → Bytes × UInt16
  | [], carry => ([], carry)
  | (x, y) :: l, carry =>
    let r := x.toUInt16 + (y.toUInt16 <<< 3) + carry
    let (out, c) := mul8Loop l (r >>> 8)
    ((r &&& 0xff).toUInt8 :: out, c)

/-- bip32.go:78-82, second loop of `add28mul8`, over the last four bytes of `x`; the final carry is dropped. -/
def carryLoop : List UInt8 → UInt16 → Bytes
  | [], _ => []
  | x :: l, carry =>
    let r := x.toUInt16 + carry
    (r &&& 0xff).toUInt8 :: carryLoop l (r >>> 8)

/-- bip32.go:69-84 `add28mul8` on two 32-byte slices (the only use). -/
def add28mul8 (x y : Bytes) : Bytes :=
  let (out, c) := mul8Loop ((x.take 28).zip (y.take 28)) 0
  out ++ carryLoop ((x.drop 28).take 4) c

/-- bip32.go:90-94, the loop of `add256bits`; the final carry is dropped. -/
def addLoop : List (UInt8 × UInt8) → UInt16 → Bytes
  | [], _ => []
  | (x, y) :: l, carry =>
    let r := x.toUInt16 + y.toUInt16 + carry
    (r &&& 0xff).toUInt8 :: addLoop l (r >>> 8)

/-- bip32.go:86-96 `add256bits` on two 32-byte slices (the only use). -/
def add256bits (x y : Bytes) : Bytes := addLoop ((x.take 32).zip (y.take 32)) 0

/-- bip32.go:102-103 `binary.LittleEndian.PutUint32`. -/
def le32 (n : UInt32) : Bytes := [n.toUInt8, (n >>> 8).toUInt8, (n >>> 16).toUInt8, (n >>> 24).toUInt8]

/-- bip32.go:98-138 `Derive`. The key is a slice of at least 64 bytes with capacity equal to its length (a shorter one panics in
`key[:64]`); `pub` is `MakePublicKey` on the first 64 bytes. Successive `Write` calls concatenate. -/
def Derive (H : Hashes) (pub : Bytes → Bytes) (key : Bytes) (index : UInt32) : Res Bytes :=
  if key.length < 64 then .panic
  else
    let ext := key.take 64
    let chain := key.drop 64
    let zin := if isHardened index then 0x00 :: (ext ++ le32 index) else 0x02 :: (pub ext ++ le32 index)
    let iin := if isHardened index then 0x01 :: (ext ++ le32 index) else 0x03 :: (pub ext ++ le32 index)
    let zout := H.hmac512 chain zin
    let iout := H.hmac512 chain iin
    let left := add28mul8 (key.take 32) (zout.take 32)
    let right := add256bits ((key.drop 32).take 32) ((zout.drop 32).take 32)
    .ok (left ++ right ++ iout.drop 32)

/-- Repeated derivation, as in `key.Derive(a).Derive(b)...`. -/
def derivePath (H : Hashes) (pub : Bytes → Bytes) : Bytes → List UInt32 → Res Bytes
  | key, [] => .ok key
  | key, i :: path => do
    let k ← Derive H pub key i
    derivePath H pub k path

/-- bip32.go:65-67 `ChainCode` of an extended private key. -/
def XPrvChainCode (key : Bytes) : Res Bytes := if key.length < 64 then .panic else .ok (key.drop 64)

/-- bip32.go:140-146 `Public` (with the same convention on `pub`), and bip32.go:57-59 `publicKey`. -/
def Public (pub : Bytes → Bytes) (key : Bytes) : Res Bytes :=
  if key.length < 64 then .panic else .ok (pub (key.take 64) ++ key.drop 64)

/-- bip32.go:148-150 `PublicKey` of an extended public key. -/
def PublicKey (xpub : Bytes) : Res Bytes := if xpub.length < 32 then .panic else .ok (xpub.take 32)

/-- bip32.go:152-154 `ChainCode` of an extended public key. -/
def ChainCode (xpub : Bytes) : Res Bytes := if xpub.length < 32 then .panic else .ok (xpub.drop 32)

/-- bip32.go:171-173 `Hash` of a public key, with crypto.go:38-47 `Blake2b224`; `blake224` is the function of the library, of which 28 bytes are
copied. -/
def Hash (blake224 : Bytes → Bytes) (pub : Bytes) : Bytes := (blake224 pub).take 28

end Bip32
end Cardano
