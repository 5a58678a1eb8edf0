import Verif.Bip32.Keys
import Verif.Ed25519.ScalarMultModel
/-!
# Model of `bip32/bip32.go`: public keys and signatures

Slices have capacity equal to their length. `copy` between 32-byte pieces and successive `Write` calls are concatenations.
-/
set_option autoImplicit false

namespace Cardano.Bip32
open Ed

/-- bip32.go:175-184 `MakePublicKey` on a slice of at least 32 bytes. -/
def makePublicKey (extendedSecret : Bytes) : Bytes := (GeScalarMultBase (extendedSecret.take 32)).ToBytes

/-- bip32.go:175-184 `MakePublicKey`; panics in `extendedSecret[:32]` on shorter slices. -/
def MakePublicKey (extendedSecret : Bytes) : Res Bytes := if extendedSecret.length < 32 then .panic else .ok (makePublicKey extendedSecret)

/-- bip32.go:198-236 `Sign`. The zeros of `getFilledArray` (bip32.go:190-196) are all overwritten. The slice expressions panic on keys shorter than 64 bytes. -/
def Sign (H : Hashes) (prv message : Bytes) : Res Bytes :=
  if prv.length < 64 then .panic
  else
    let publicKey := makePublicKey prv
    let nonce := ScReduce (H.sha512 ((prv.drop 32).take 32 ++ message))
    let r := (GeScalarMultBase nonce).ToBytes
    let signature := r ++ publicKey
    let hram := H.sha512 (signature ++ message)
    let hramReduced := ScReduce hram
    let s := ScMulAdd hramReduced (prv.take 32) nonce
    .ok (signature.take 32 ++ s)

end Cardano.Bip32
