import Verif.Go.Memory
import Verif.Bip32.Sign
/-!
# Model of `bip32/bip32.go` with memory

`Bip32/Keys.lean` and `Bip32/Sign.lean` treat keys as values. Here they are slices with capacity, as in Go: functions allocate, write in place and reslice. `spare`
parameters are the room the run-time leaves when `append` allocates.
-/
set_option autoImplicit false

namespace Cardano.Bip32.Heap
open Go

/-- bip32.go:164-169 `NormalizeBytesForce3rd`: writes into its argument and returns it. -/
def NormalizeBytesForce3rd (m : Mem) (b : Slice) : Res (Slice × Mem) := do
  let m ← m.modifyAt b 0 (· &&& 0xf8)
  let m ← m.modifyAt b 31 (· &&& 0x1f)
  let m ← m.modifyAt b 31 (· ||| 0x40)
  return (b, m)

/-- bip32.go:158-162 `FromBip39Entropy`. The slice returned by `pbkdf2.Key` has 96 bytes, and behind them in the same array the rest `rest` of the last block. -/
def FromBip39Entropy (H : Hashes) (rest : Bytes → Bytes → Bytes) (m : Mem) (entropy password : Slice) : Res (Slice × Mem) :=
  let (s, m') := m.alloc (H.pbkdf2 (m.read password) (m.read entropy)) (rest (m.read password) (m.read entropy))
  NormalizeBytesForce3rd m' s

/-- bip32.go:25-51 `NewXPrv`. The array `extendedPrivateKey` has no room for the chain code, so the `append` in line 50 allocates. -/
def NewXPrv (H : Hashes) (m : Mem) (seed : Slice) (spare : Nat) : Res (Slice × Mem) :=
  if seed.len ≠ 32 then .err "seed needs to be 256 bits long"
  else do
    let (k, m) := m.alloc (H.sha512 (m.read seed)) []
    let m ← m.modifyAt k 0 (· &&& 0xf8)
    let m ← m.modifyAt k 31 (· &&& 0x5f)
    let m ← m.modifyAt k 31 (· ||| 0x40)
    let chain := H.sha256 (0x01 :: m.read seed)
    return m.append k chain spare

/-- bip32.go:65-67 `ChainCode` of an extended private key, `key[64:]`. -/
def XPrvChainCode (key : Slice) : Res Slice := key.sub 64 key.len

/-- bip32.go:61-63 `extendedPrivateKey`, `key[:64]`. -/
def extendedPrivateKey (key : Slice) : Res Slice := key.sub 0 64

/-- bip32.go:98-138 `Derive`. `make([]byte, 0, 92)` is too small for the 96 bytes, so the last `append` allocates. -/
def Derive (H : Hashes) (pub : Bytes → Bytes) (m : Mem) (key : Slice) (index : UInt32) (spare : Nat) : Res (Slice × Mem) := do
  let chain ← XPrvChainCode key
  let ext ← extendedPrivateKey key
  let zin := if isHardened index then 0x00 :: (m.read ext ++ le32 index) else 0x02 :: (pub (m.read ext) ++ le32 index)
  let iin := if isHardened index then 0x01 :: (m.read ext ++ le32 index) else 0x03 :: (pub (m.read ext) ++ le32 index)
  let zout := H.hmac512 (m.read chain) zin
  let iout := H.hmac512 (m.read chain) iin
  let kl ← key.sub 0 32
  let kr ← key.sub 32 64
  let left := add28mul8 (m.read kl) (zout.take 32)
  let right := add256bits (m.read kr) ((zout.drop 32).take 32)
  let (out, m) := m.alloc [] (List.replicate 92 0)
  let (out, m) := m.append out left spare
  let (out, m) := m.append out right spare
  return m.append out (iout.drop 32) spare

/-- bip32.go:140-146 `Public`. -/
def Public (pub : Bytes → Bytes) (m : Mem) (key : Slice) (spare : Nat) : Res (Slice × Mem) := do
  let (out, m) := m.alloc [] (List.replicate 64 0)
  let ext ← extendedPrivateKey key
  let (out, m) := m.append out (pub (m.read ext)) spare
  let chain ← XPrvChainCode key
  return m.append out (m.read chain) spare

/-- bip32.go:148-150 `PublicKey`, `pub[:32]`. -/
def PublicKey (pub : Slice) : Res Slice := pub.sub 0 32

/-- bip32.go:152-154 `ChainCode`, `pub[32:]`. -/
def ChainCode (pub : Slice) : Res Slice := pub.sub 32 pub.len

/-- bip32.go:198-236 `Sign`. The slice expressions are `extendedSecret[:32]` in `MakePublicKey`, `(*prv)[32:64]` and `(*prv)[0:32]`; the result is an array, a value. -/
def Sign (H : Hashes) (m : Mem) (prv message : Slice) : Res (Bytes × Mem) := do
  let k ← prv.sub 0 32
  let ext ← prv.sub 32 64
  let publicKey := makePublicKey (m.read k)
  let nonce := Ed.ScReduce (H.sha512 (m.read ext ++ m.read message))
  let r := (Ed.GeScalarMultBase nonce).ToBytes
  let signature := r ++ publicKey
  let hramReduced := Ed.ScReduce (H.sha512 (signature ++ m.read message))
  let s := Ed.ScMulAdd hramReduced (m.read k) nonce
  return (signature.take 32 ++ s, m)

/-- Repeated derivation, as in `key.Derive(a).Derive(b)...`; one `spare` for each step. -/
def derivePath (H : Hashes) (pub : Bytes → Bytes) : Mem → Slice → List (UInt32 × Nat) → Res (Slice × Mem)
  | m, key, [] => .ok (key, m)
  | m, key, (i, spare) :: path => do
    let (k, m') ← Derive H pub m key i spare
    derivePath H pub m' k path

end Cardano.Bip32.Heap
