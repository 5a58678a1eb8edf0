import Verif.Bip32.Sign
import Verif.Ed25519.Pointers
/-!
# `MakePublicKey` and `Sign` with the memory of the curve package

The byte strings are values as in `Bip32/Sign.lean`; the group elements are variables in the memory of `Ed25519/Pointers.lean`, in which the
tables of the package are kept. A call that panics leaves the memory it has made.
-/
set_option autoImplicit false

namespace Cardano.Bip32.Ptr
open Ed

/-- bip32.go:180-182 and 214-216: `h := ExtendedGroupElement{}; GeScalarMultBase(&h, &key); h.ToBytes(&result)`. -/
def basePoint (key : Bytes) (m : Ed.Ptr.Mem) : Bytes × Ed.Ptr.Mem :=
  let h := m.new.1
  let m := m.new.2
  let m := Ed.Ptr.GeScalarMultBase h key m
  Ed.Ptr.toBytes h m

/-- bip32.go:175-184 `MakePublicKey`. -/
def MakePublicKey (extendedSecret : Bytes) (m : Ed.Ptr.Mem) : Res Bytes × Ed.Ptr.Mem :=
  if extendedSecret.length < 32 then (.panic, m)
  else
    let r := basePoint (extendedSecret.take 32) m
    (.ok r.1, r.2)

/-- bip32.go:198-236 `Sign`. -/
def Sign (H : Hashes) (prv message : Bytes) (m : Ed.Ptr.Mem) : Res Bytes × Ed.Ptr.Mem :=
  if prv.length < 32 then (.panic, m)
  else
    let pk := basePoint (prv.take 32) m
    let publicKey := pk.1
    if prv.length < 64 then (.panic, pk.2)
    else
      let nonce := ScReduce (H.sha512 ((prv.drop 32).take 32 ++ message))
      let r := basePoint nonce pk.2
      let signature := r.1 ++ publicKey
      let hram := H.sha512 (signature ++ message)
      let hramReduced := ScReduce hram
      let s := ScMulAdd hramReduced (prv.take 32) nonce
      (.ok (signature.take 32 ++ s), r.2)

end Cardano.Bip32.Ptr
