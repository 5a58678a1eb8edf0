import Verif.Ed25519.Leakage
import Verif.Bip32.Keys
/-!
# The functions of `bip32.go` on secret keys, access by access

Key arrays, digits and hash outputs are in the memory as well: byte `i` of an array is limb `i` of field 0 of an object. The hash functions read the bytes that
are written to them, in order, and write their output into a new array (what they access in between is not modelled). Slices are given with their length.
`copy` goes through the bytes in order. The `int64` variables of the scalar arithmetic are not in the memory: `exec` goes through a fixed list of steps.
-/
set_option autoImplicit false

namespace Cardano.Bip32.Acc
open Ed Ed.Ptr Ed.Ptr.Prog Ed.Ptr.P

/-- `b[i]` -/
def rdB (o i : Nat) : Prog UInt8 := .read o 0 i fun v => .ret (UInt8.ofNat v.toNat)
/-- `b[i] = v` -/
def wrB (o i : Nat) (v : UInt8) : Prog Unit := .write o 0 i v.toNat (.ret ())

/-- `n` bytes from index `i` on. -/
def rdBs (o i : Nat) : Nat → Prog Bytes
  | 0 => pure []
  | n + 1 => do
    let x ← rdB o i
    let xs ← rdBs o (i + 1) n
    return x :: xs

/-- `n` bytes written from index `i` on. -/
def wrBs (o i n : Nat) (l : Bytes) : Prog Unit := each (fun j => wrB o (i + j) (l.getD j 0)) (List.range n)

/-- `copy(dst[i:i+n], src[j:j+n])` -/
def copyB (dst i src j n : Nat) : Prog Unit := each (fun k => do
  let v ← rdB src (j + k)
  wrB dst (i + k) v) (List.range n)

/-! ## The digits of a scalar -/

/-- edwards25519.go:973-976: the halves of the bytes. -/
def splitE (e a : Nat) : Prog Unit := each (fun i => do
  let v ← rdB a i
  wr (e, 0) (2 * i) (wrap 8 ((v &&& 15).toNat))
  wr (e, 0) (2 * i + 1) (wrap 8 ((v >>> 4 &&& 15).toNat))) (List.range 32)

/-- edwards25519.go:981-985: the loop with the carry, `n` rounds from index `i` on; it gives the carry on. -/
def carryE (e : Nat) : (i n : Nat) → (carry : Int) → Prog Int
  | _, 0, carry => pure carry
  | i, n + 1, carry => do
    let x ← rd (e, 0) i
    wr (e, 0) i (wrap 8 (x + carry))
    let x ← rd (e, 0) i
    let carry := wrap 8 (x + 8) / 2 ^ 4
    let x ← rd (e, 0) i
    wr (e, 0) i (wrap 8 (x - wrap 8 (carry * 2 ^ 4)))
    carryE e (i + 1) n carry

/-- edwards25519.go:971-986: the digits. -/
def digitsE (a : Nat) : Prog Nat := do
  let e ← decl
  splitE e a
  let carry ← carryE e 0 63 0
  let x ← rd (e, 0) 63
  wr (e, 0) 63 (wrap 8 (x + carry))
  return e

/-- edwards25519.go:992-996 and 1009-1013, one loop with `i = 2 * pos + odd`. -/
def baseLoop (e odd h t r : Nat) : Prog Unit :=
  each (fun pos => do
    let x ← rd (e, 0) (2 * pos + odd)
    selectPoint t pos x
    geMixedAdd r h t
    toExtended r h) (List.range 32)

/-- edwards25519.go:989-1013: what `GeScalarMultBase` does after making the digits. -/
def multE (e h : Nat) : Prog Unit := do
  extZero h
  let t ← decl
  let r ← decl
  baseLoop e 1 h t r
  let s ← decl
  extDouble h r
  complToProjective r s
  projDouble s r
  complToProjective r s
  projDouble s r
  complToProjective r s
  projDouble s r
  toExtended r h
  baseLoop e 0 h t r

/-- edwards25519.go:970-1014 `GeScalarMultBase`. -/
def GeScalarMultBase (h a : Nat) : Prog Unit := do
  let e ← digitsE a
  multE e h

/-- edwards25519.go:132-219 `FeToBytes`, with the array it writes. -/
def FeToBytes (s : Nat) (p : Loc) : Prog Unit := do
  let l ← P.FeToBytes p
  wrBs s 0 32 l

/-- edwards25519.go:221-225 `FeIsNegative`, with the array it declares. -/
def FeIsNegative (p : Loc) : Prog UInt8 := do
  let s ← decl
  FeToBytes s p
  let v ← rdB s 0
  return v &&& 1

/-- edwards25519.go:708-716 `(*ExtendedGroupElement).ToBytes`. -/
def toBytes (p s : Nat) : Prog Unit := do
  let recip ← decl
  let x ← decl
  let y ← decl
  FeInvert (recip, 0) (p, 2)
  FeMul (x, 0) (p, 0) (recip, 0)
  FeMul (y, 0) (p, 1) (recip, 0)
  FeToBytes s (y, 0)
  let b ← FeIsNegative (x, 0)
  let v ← rdB s 31
  wrB s 31 (v ^^^ (b <<< 7))

/-! ## Scalars -/

/-- edwards25519.go:77-83 `load3(in[k:])`. -/
def load3 (o k : Nat) : Prog Nat := do
  let a ← rdB o k
  let b ← rdB o (k + 1)
  let c ← rdB o (k + 2)
  return a.toNat ||| b.toNat <<< 8 ||| c.toNat <<< 16

/-- edwards25519.go:85-92 `load4(in[k:])`. -/
def load4 (o k : Nat) : Prog Nat := do
  let a ← rdB o k
  let b ← rdB o (k + 1)
  let c ← rdB o (k + 2)
  let d ← rdB o (k + 3)
  return a.toNat ||| b.toNat <<< 8 ||| c.toNat <<< 16 ||| d.toNat <<< 24

/-- One limb: three or four bytes from index `k` on, shifted, and masked or not. -/
structure Limb where
  four : Bool
  k : Nat
  shift : Nat
  mask : Bool

/-- `load3(s[k:])` or `load4(s[k:])` -/
def loads (o : Nat) (l : Limb) : Prog Nat := if l.four then load4 o l.k else load3 o l.k

/-- edwards25519.go:1027-1037 and 1458-1480: `2097151 & (load3(s[k:]) >> shift)` and the like. -/
def limb (o : Nat) (l : Limb) : Prog Int := do
  let x ← loads o l
  return (if l.mask then 2097151 &&& (x >>> l.shift) else x >>> l.shift : Nat)

/-- The limbs of an array, in order. -/
def limbs (o : Nat) : List Limb → Prog Limbs
  | [] => pure []
  | l :: ls => do
    let x ← limb o l
    let xs ← limbs o ls
    return x :: xs

/-- edwards25519.go:1027-1038: the limbs of a 32-byte scalar. -/
def table32 : List Limb :=
  [ ⟨false, 0, 0, true⟩, ⟨true, 2, 5, true⟩, ⟨false, 5, 2, true⟩, ⟨true, 7, 7, true⟩, ⟨true, 10, 4, true⟩, ⟨false, 13, 1, true⟩
  , ⟨true, 15, 6, true⟩, ⟨false, 18, 3, true⟩, ⟨false, 21, 0, true⟩, ⟨true, 23, 5, true⟩, ⟨false, 26, 2, true⟩, ⟨true, 28, 7, false⟩ ]

/-- edwards25519.go:1458-1481: the limbs of a 64-byte number. -/
def table64 : List Limb :=
  [ ⟨false, 0, 0, true⟩, ⟨true, 2, 5, true⟩, ⟨false, 5, 2, true⟩, ⟨true, 7, 7, true⟩, ⟨true, 10, 4, true⟩, ⟨false, 13, 1, true⟩
  , ⟨true, 15, 6, true⟩, ⟨false, 18, 3, true⟩, ⟨false, 21, 0, true⟩, ⟨true, 23, 5, true⟩, ⟨false, 26, 2, true⟩, ⟨true, 28, 7, true⟩
  , ⟨true, 31, 4, true⟩, ⟨false, 34, 1, true⟩, ⟨true, 36, 6, true⟩, ⟨false, 39, 3, true⟩, ⟨false, 42, 0, true⟩, ⟨true, 44, 5, true⟩
  , ⟨false, 47, 2, true⟩, ⟨true, 49, 7, true⟩, ⟨true, 52, 4, true⟩, ⟨false, 55, 1, true⟩, ⟨true, 57, 6, true⟩, ⟨true, 60, 3, false⟩ ]

/-- edwards25519.go:1457-1773 `ScReduce`. -/
def ScReduce (out s : Nat) : Prog Unit := do
  let l ← limbs s table64
  wrBs out 0 32 (packScalar (exec 64 l (scMain ++ scChain ++ scLast)))

/-- edwards25519.go:1026-1449 `ScMulAdd`. -/
def ScMulAdd (s a b c : Nat) : Prog Unit := do
  let x ← limbs a table32
  let y ← limbs b table32
  let z ← limbs c table32
  wrBs s 0 32 (packScalar (exec 64 (mulAddLimbs.map (E.eval (x ++ y ++ z)) ++ [0]) (mulAddCarries ++ scMain ++ scChain ++ scLast)))

/-! ## Keys -/

/-- A piece `b[i:i+n]` of an array. -/
structure Piece where
  o : Nat
  i : Nat
  n : Nat

/-- The bytes of the pieces, one after the other. -/
def rdPieces : List Piece → Prog Bytes
  | [] => pure []
  | p :: ps => do
    let x ← rdBs p.o p.i p.n
    let xs ← rdPieces ps
    return x ++ xs

/-- `Sum` of a hash function: `n` bytes in a new array. -/
def sum (n : Nat) (l : Bytes) : Prog Nat := do
  let out ← decl
  wrBs out 0 n l
  return out

/-- bip32.go:175-184 `MakePublicKey`, of a slice of at least 32 bytes: the array `result`. -/
def MakePublicKey (extendedSecret : Nat) : Prog Nat := do
  let result ← decl
  let key ← decl
  copyB key 0 extendedSecret 0 32
  let h ← decl
  GeScalarMultBase h key
  toBytes h result
  return result

/-- bip32.go:198-236 `Sign`, of a key of at least 64 bytes and a message of `n` bytes: the array `signature`. -/
def Sign (H : Hashes) (prv message n : Nat) : Prog Nat := do
  let publicKey ← MakePublicKey prv
  let x ← rdPieces [⟨prv, 32, 32⟩, ⟨message, 0, n⟩]
  let hashOutput ← sum 64 (H.sha512 x)
  let nonce ← decl
  let hashFull ← decl
  copyB hashFull 0 hashOutput 0 64
  ScReduce nonce hashFull
  let signature ← decl
  let filled ← decl
  wrBs filled 0 64 []
  copyB signature 0 filled 0 64
  let r ← decl
  let h ← decl
  GeScalarMultBase h nonce
  toBytes h r
  copyB signature 0 r 0 32
  copyB signature 32 publicKey 0 32
  let x ← rdPieces [⟨signature, 0, 64⟩, ⟨message, 0, n⟩]
  let hram ← decl
  let hramTmp ← sum 64 (H.sha512 x)
  copyB hram 0 hramTmp 0 64
  let hramReduced ← decl
  ScReduce hramReduced hram
  let s ← decl
  let b ← decl
  copyB s 0 signature 32 32
  copyB b 0 prv 0 32
  ScMulAdd s hramReduced b nonce
  copyB signature 32 s 0 32
  return signature

/-- bip32.go:70-77: the first loop of `add28mul8`, `n` rounds from index `i` on; `x` and `y` are pieces of arrays. -/
def mul8Loop (out x xi y yi : Nat) : (i n : Nat) → UInt16 → Prog UInt16
  | _, 0, carry => pure carry
  | i, n + 1, carry => do
    let a ← rdB x (xi + i)
    let b ← rdB y (yi + i)
    let r := a.toUInt16 + (b.toUInt16 <<< 3) + carry
    wrB out i (r &&& 0xff).toUInt8
    mul8Loop out x xi y yi (i + 1) n (r >>> 8)

/-- bip32.go:78-82: the second loop of `add28mul8`. -/
def carryLoop (out x xi : Nat) : (i n : Nat) → UInt16 → Prog Unit
  | _, 0, _ => pure ()
  | i, n + 1, carry => do
    let a ← rdB x (xi + i)
    let r := a.toUInt16 + carry
    wrB out i (r &&& 0xff).toUInt8
    carryLoop out x xi (i + 1) n (r >>> 8)

/-- bip32.go:69-84 `add28mul8`. -/
def add28mul8 (x xi y yi : Nat) : Prog Nat := do
  let out ← decl
  let carry ← mul8Loop out x xi y yi 0 28 0
  carryLoop out x xi 28 4 carry
  return out

/-- bip32.go:90-94: the loop of `add256bits`. -/
def addLoop (out x xi y yi : Nat) : (i n : Nat) → UInt16 → Prog Unit
  | _, 0, _ => pure ()
  | i, n + 1, carry => do
    let a ← rdB x (xi + i)
    let b ← rdB y (yi + i)
    let r := a.toUInt16 + b.toUInt16 + carry
    wrB out i (r &&& 0xff).toUInt8
    addLoop out x xi y yi (i + 1) n (r >>> 8)

/-- bip32.go:86-96 `add256bits`. -/
def add256bits (x xi y yi : Nat) : Prog Nat := do
  let out ← decl
  addLoop out x xi y yi 0 32 0
  return out

/-- `[]byte{b}` -/
def byteArray (b : UInt8) : Prog Nat := do
  let o ← decl
  wrB o 0 b
  return o

/-- bip32.go:107-112 and 115-120: what is written to one of the two hash functions: a byte, the piece, the index. -/
def deriveInput (tag : UInt8) (p : Piece) (serializedIndex : Nat) : Prog Bytes := do
  let t ← byteArray tag
  rdPieces [⟨t, 0, 1⟩, p, ⟨serializedIndex, 0, 4⟩]

/-- bip32.go:105-121: what is written to `zmac` and to `imac`. -/
def deriveInputs (key : Nat) (index : UInt32) (serializedIndex : Nat) : Prog (Bytes × Bytes) :=
  if isHardened index then do
    let z ← deriveInput 0x00 ⟨key, 0, 64⟩ serializedIndex
    let i ← deriveInput 0x01 ⟨key, 0, 64⟩ serializedIndex
    return (z, i)
  else do
    let pk ← MakePublicKey key
    let z ← deriveInput 0x02 ⟨pk, 0, 32⟩ serializedIndex
    let i ← deriveInput 0x03 ⟨pk, 0, 32⟩ serializedIndex
    return (z, i)

/-- bip32.go:123-137: what `Derive` does with the two outputs. The third `append` exceeds the capacity of 92: the bytes are copied to a new array. -/
def deriveOutput (key zout iout : Nat) : Prog Nat := do
  let left ← add28mul8 key 0 zout 0
  let right ← add256bits key 32 zout 32
  let out ← decl
  copyB out 0 left 0 32
  copyB out 32 right 0 32
  let out' ← decl
  copyB out' 0 out 0 64
  copyB out' 64 iout 32 32
  return out'

/-- bip32.go:98-138 `Derive`, of a key of `n` bytes, at least 64. -/
def Derive (H : Hashes) (key n : Nat) (index : UInt32) : Prog Nat := do
  let k ← rdBs key 64 (n - 64)
  let k' ← rdBs key 64 (n - 64)
  let serializedIndex ← decl
  wrBs serializedIndex 0 4 (le32 index)
  let x ← deriveInputs key index serializedIndex
  let zout ← sum 64 (H.hmac512 k x.1)
  let iout ← sum 64 (H.hmac512 k' x.2)
  deriveOutput key zout iout

/-- bip32.go:164-169 `NormalizeBytesForce3rd`, of a slice of at least 32 bytes. -/
def NormalizeBytesForce3rd (b : Nat) : Prog Unit := do
  let v ← rdB b 0
  wrB b 0 (v &&& 0xf8)
  let v ← rdB b 31
  wrB b 31 (v &&& 0x1f)
  let v ← rdB b 31
  wrB b 31 (v ||| 0x40)

/-- bip32.go:158-162 `FromBip39Entropy`, of an entropy of `n` bytes and a password of `k` bytes. -/
def FromBip39Entropy (H : Hashes) (entropy n password k : Nat) : Prog Nat := do
  let p ← rdBs password 0 k
  let e ← rdBs entropy 0 n
  let r ← decl
  wrBs r 0 96 (H.pbkdf2 p e)
  NormalizeBytesForce3rd r
  return r

/-- bip32.go:25-51 `NewXPrv`, of a seed of 32 bytes. -/
def NewXPrv (H : Hashes) (seed : Nat) : Prog Nat := do
  let x ← rdBs seed 0 32
  let k ← sum 64 (H.sha512 x)
  let v ← rdB k 0
  wrB k 0 (v &&& 0xf8)
  let v ← rdB k 31
  wrB k 31 (v &&& 0x5f)
  let v ← rdB k 31
  wrB k 31 (v ||| 0x40)
  let one ← byteArray 0x01
  let appended ← decl
  copyB appended 0 one 0 1
  copyB appended 1 seed 0 32
  let x ← rdBs appended 0 33
  let chain ← sum 32 (H.sha256 x)
  let out ← decl
  copyB out 0 k 0 64
  copyB out 64 chain 0 32
  return out

/-! ## The accesses do not depend on the values -/

variable {P : Nat → Prop}

theorem same_rdB (o i : Nat) : Same P (rdB o i) (rdB o i) := .read _ _ _ fun _ _ => .ret _ _

theorem same_wrB {o : Nat} (h : P o) (i : Nat) (v w : UInt8) : Same P (wrB o i v) (wrB o i w) := .write _ _ _ _ _ h (.ret _ _)

theorem same_rdBs (o i n : Nat) : Same P (rdBs o i n) (rdBs o i n) := by
  induction n generalizing i with
  | zero => exact same_pure _ _
  | succ n ih => exact same_bind (same_rdB o i) fun _ _ => same_bind (ih _) fun _ _ => same_pure _ _

theorem same_wrBs {o : Nat} (h : P o) (i n : Nat) (l l' : Bytes) : Same P (wrBs o i n l) (wrBs o i n l') := same_each fun _ _ => same_wrB h _ _ _

theorem same_copyB {dst : Nat} (h : P dst) (i src j n : Nat) : Same P (copyB dst i src j n) (copyB dst i src j n) :=
  same_each fun _ _ => same_bind (same_rdB _ _) fun _ _ => same_wrB h _ _ _

theorem same_splitE {e : Nat} (h : P e) (a : Nat) : Same P (splitE e a) (splitE e a) :=
  same_each fun _ _ => same_bind (same_rdB _ _) fun _ _ => same_bind (same_wr h _ _ _) fun _ _ => same_wr h _ _ _

theorem same_carryE {e : Nat} (h : P e) (i n : Nat) (c c' : Int) : Same P (carryE e i n c) (carryE e i n c') := by
  induction n generalizing i c c' with
  | zero => exact same_pure _ _
  | succ n ih =>
    exact same_bind (same_rd _ _) fun _ _ => same_bind (same_wr h _ _ _) fun _ _ => same_bind (same_rd _ _) fun _ _ => same_bind (same_rd _ _) fun _ _ =>
      same_bind (same_wr h _ _ _) fun _ _ => ih _ _ _

theorem same_baseLoop {e odd h t r : Nat} (hh : P h) (ht : P t) (hr : P r) : Same P (baseLoop e odd h t r) (baseLoop e odd h t r) :=
  same_each fun _ _ => same_bind (same_rd _ _) fun _ _ => same_bind (same_selectPoint ht) fun _ _ => same_bind (same_geMixedAdd hr) fun _ _ => same_toExtended hh

theorem same_multE {e h : Nat} (hh : P h) : Same P (multE e h) (multE e h) := by
  unfold multE
  exact
    same_bind (same_extZero hh) fun _ _ => same_decl fun t ht => same_decl fun r hr => same_bind (same_baseLoop hh ht hr) fun _ _ => same_decl fun s hs =>
      same_bind (same_extDouble hr) fun _ _ => same_bind (same_complToProjective hs) fun _ _ => same_bind (same_projDouble hr) fun _ _ =>
      same_bind (same_complToProjective hs) fun _ _ => same_bind (same_projDouble hr) fun _ _ => same_bind (same_complToProjective hs) fun _ _ =>
      same_bind (same_projDouble hr) fun _ _ => same_bind (same_toExtended hh) fun _ _ => same_baseLoop hh ht hr

/-- Programs that give a new object on: what comes after them is the same if it is for every object that may be written. -/
structure SameNew (P : Nat → Prop) (p q : Prog Nat) : Prop where
  andThen : ∀ {β γ : Type} {g : Nat → Prog β} {g' : Nat → Prog γ}, (∀ o, P o → Same P (g o) (g' o)) → Same P (p >>= g) (q >>= g')

theorem SameNew.same {p q : Prog Nat} (h : SameNew P p q) : Same P p q := by
  have := h.andThen (g := Pure.pure) (g' := Pure.pure) fun _ _ => same_pure _ _
  rwa [bind_pure, bind_pure] at this

theorem SameNew.bind {α β : Type} {p : Prog α} {q : Prog β} {g : α → Prog Nat} {g' : β → Prog Nat} (hp : Same P p q) (hg : ∀ a b, SameNew P (g a) (g' b)) :
    SameNew P (p >>= g) (q >>= g') := ⟨fun h => by
  rw [bind_assoc, bind_assoc]
  exact same_bind hp fun a b => (hg a b).andThen h⟩

theorem SameNew.new {p q : Prog Nat} {g g' : Nat → Prog Nat} (hp : SameNew P p q) (hg : ∀ o, P o → SameNew P (g o) (g' o)) : SameNew P (p >>= g) (q >>= g') := ⟨fun h => by
  rw [bind_assoc, bind_assoc]
  exact hp.andThen fun o ho => (hg o ho).andThen h⟩

theorem SameNew.pure {o : Nat} (ho : P o) : SameNew P (pure o) (pure o) := ⟨fun h => h o ho⟩

theorem sameNew_decl : SameNew P decl decl := ⟨fun h => same_decl h⟩

theorem sameNew_digitsE (a : Nat) : SameNew P (digitsE a) (digitsE a) :=
  sameNew_decl.new fun _ he => .bind (same_splitE he _) fun _ _ => .bind (same_carryE he _ _ _ _) fun _ _ => .bind (same_rd _ _) fun _ _ =>
    .bind (same_wr he _ _ _) fun _ _ => .pure he

theorem same_GeScalarMultBase {h a : Nat} (hh : P h) : Same P (GeScalarMultBase h a) (GeScalarMultBase h a) := (sameNew_digitsE a).andThen fun _ _ => same_multE hh

theorem same_FeToBytes {s : Nat} {p : Loc} (hs : P s) (hp : P p.1) : Same P (FeToBytes s p) (FeToBytes s p) :=
  same_bind (Ptr.P.same_FeToBytes hp) fun _ _ => same_wrBs hs _ _ _ _

theorem same_FeIsNegative {p : Loc} (hp : P p.1) : Same P (FeIsNegative p) (FeIsNegative p) :=
  sameNew_decl.andThen fun _ hs => same_bind (same_FeToBytes hs hp) fun _ _ => same_bind (same_rdB _ _) fun _ _ => same_pure _ _

theorem same_toBytes {p s : Nat} (hs : P s) : Same P (toBytes p s) (toBytes p s) :=
  sameNew_decl.andThen fun _ hr => sameNew_decl.andThen fun _ hx => sameNew_decl.andThen fun _ hy => same_bind (same_FeInvert hr) fun _ _ => same_bind (same_FeMul hx) fun _ _ =>
    same_bind (same_FeMul hy) fun _ _ => same_bind (same_FeToBytes hs hy) fun _ _ => same_bind (same_FeIsNegative hx) fun _ _ => same_bind (same_rdB _ _) fun _ _ =>
    same_wrB hs _ _ _

theorem same_load3 (o k : Nat) : Same P (load3 o k) (load3 o k) :=
  same_bind (same_rdB _ _) fun _ _ => same_bind (same_rdB _ _) fun _ _ => same_bind (same_rdB _ _) fun _ _ => same_pure _ _

theorem same_load4 (o k : Nat) : Same P (load4 o k) (load4 o k) :=
  same_bind (same_rdB _ _) fun _ _ => same_bind (same_rdB _ _) fun _ _ => same_bind (same_rdB _ _) fun _ _ => same_bind (same_rdB _ _) fun _ _ => same_pure _ _

theorem same_limb (o : Nat) (l : Limb) : Same P (limb o l) (limb o l) := by
  refine same_bind ?_ fun _ _ => same_pure _ _
  unfold loads
  split
  · exact same_load4 _ _
  · exact same_load3 _ _

theorem same_limbs (o : Nat) (l : List Limb) : Same P (limbs o l) (limbs o l) := by
  induction l with
  | nil => exact same_pure _ _
  | cons x l ih => exact same_bind (same_limb o x) fun _ _ => same_bind ih fun _ _ => same_pure _ _

theorem same_ScReduce {out s : Nat} (h : P out) : Same P (ScReduce out s) (ScReduce out s) := same_bind (same_limbs _ _) fun _ _ => same_wrBs h _ _ _ _

theorem same_ScMulAdd {s a b c : Nat} (h : P s) : Same P (ScMulAdd s a b c) (ScMulAdd s a b c) :=
  same_bind (same_limbs _ _) fun _ _ => same_bind (same_limbs _ _) fun _ _ => same_bind (same_limbs _ _) fun _ _ => same_wrBs h _ _ _ _

theorem same_rdPieces (l : List Piece) : Same P (rdPieces l) (rdPieces l) := by
  induction l with
  | nil => exact same_pure _ _
  | cons x l ih => exact same_bind (same_rdBs _ _ _) fun _ _ => same_bind ih fun _ _ => same_pure _ _

theorem sameNew_sum (n : Nat) (l l' : Bytes) : SameNew P (sum n l) (sum n l') := sameNew_decl.new fun _ ho => .bind (same_wrBs ho _ _ _ _) fun _ _ => .pure ho

theorem sameNew_MakePublicKey (sk : Nat) : SameNew P (MakePublicKey sk) (MakePublicKey sk) :=
  sameNew_decl.new fun _ hr => sameNew_decl.new fun _ hk => .bind (same_copyB hk _ _ _ _) fun _ _ => sameNew_decl.new fun _ hh =>
    .bind (same_GeScalarMultBase hh) fun _ _ => .bind (same_toBytes hr) fun _ _ => .pure hr

theorem sameNew_Sign (H : Hashes) (prv message n : Nat) : SameNew P (Sign H prv message n) (Sign H prv message n) :=
  (sameNew_MakePublicKey prv).new fun _ _ => .bind (same_rdPieces _) fun _ _ => (sameNew_sum _ _ _).new fun _ _ =>
    sameNew_decl.new fun _ hnonce => sameNew_decl.new fun _ hfull => .bind (same_copyB hfull _ _ _ _) fun _ _ => .bind (same_ScReduce hnonce) fun _ _ =>
    sameNew_decl.new fun _ hsig => sameNew_decl.new fun _ hfilled => .bind (same_wrBs hfilled _ _ _ _) fun _ _ => .bind (same_copyB hsig _ _ _ _) fun _ _ =>
    sameNew_decl.new fun _ hr => sameNew_decl.new fun _ hh => .bind (same_GeScalarMultBase hh) fun _ _ => .bind (same_toBytes hr) fun _ _ =>
    .bind (same_copyB hsig _ _ _ _) fun _ _ => .bind (same_copyB hsig _ _ _ _) fun _ _ => .bind (same_rdPieces _) fun _ _ => sameNew_decl.new fun _ hhram =>
    (sameNew_sum _ _ _).new fun _ _ => .bind (same_copyB hhram _ _ _ _) fun _ _ => sameNew_decl.new fun _ hred => .bind (same_ScReduce hred) fun _ _ =>
    sameNew_decl.new fun _ hs => sameNew_decl.new fun _ hb => .bind (same_copyB hs _ _ _ _) fun _ _ => .bind (same_copyB hb _ _ _ _) fun _ _ =>
    .bind (same_ScMulAdd hs) fun _ _ => .bind (same_copyB hsig _ _ _ _) fun _ _ => .pure hsig

theorem same_mul8Loop {out : Nat} (h : P out) (x xi y yi i n : Nat) (c c' : UInt16) : Same P (mul8Loop out x xi y yi i n c) (mul8Loop out x xi y yi i n c') := by
  induction n generalizing i c c' with
  | zero => exact same_pure _ _
  | succ n ih => exact same_bind (same_rdB _ _) fun _ _ => same_bind (same_rdB _ _) fun _ _ => same_bind (same_wrB h _ _ _) fun _ _ => ih _ _ _

theorem same_carryLoop {out : Nat} (h : P out) (x xi i n : Nat) (c c' : UInt16) : Same P (carryLoop out x xi i n c) (carryLoop out x xi i n c') := by
  induction n generalizing i c c' with
  | zero => exact same_pure _ _
  | succ n ih => exact same_bind (same_rdB _ _) fun _ _ => same_bind (same_wrB h _ _ _) fun _ _ => ih _ _ _

theorem sameNew_add28mul8 (x xi y yi : Nat) : SameNew P (add28mul8 x xi y yi) (add28mul8 x xi y yi) :=
  sameNew_decl.new fun _ h => .bind (same_mul8Loop h _ _ _ _ _ _ _ _) fun _ _ => .bind (same_carryLoop h _ _ _ _ _ _) fun _ _ => .pure h

theorem same_addLoop {out : Nat} (h : P out) (x xi y yi i n : Nat) (c c' : UInt16) : Same P (addLoop out x xi y yi i n c) (addLoop out x xi y yi i n c') := by
  induction n generalizing i c c' with
  | zero => exact same_pure _ _
  | succ n ih => exact same_bind (same_rdB _ _) fun _ _ => same_bind (same_rdB _ _) fun _ _ => same_bind (same_wrB h _ _ _) fun _ _ => ih _ _ _

theorem sameNew_add256bits (x xi y yi : Nat) : SameNew P (add256bits x xi y yi) (add256bits x xi y yi) :=
  sameNew_decl.new fun _ h => .bind (same_addLoop h _ _ _ _ _ _ _ _) fun _ _ => .pure h

theorem sameNew_byteArray (b b' : UInt8) : SameNew P (byteArray b) (byteArray b') := sameNew_decl.new fun _ h => .bind (same_wrB h _ _ _) fun _ _ => .pure h

theorem same_deriveInput (t t' : UInt8) (p : Piece) (s : Nat) : Same P (deriveInput t p s) (deriveInput t' p s) :=
  (sameNew_byteArray t t').andThen fun _ _ => same_rdPieces _

theorem same_deriveInputs (key : Nat) {index index' : UInt32} (hi : isHardened index = isHardened index') (s : Nat) :
    Same P (deriveInputs key index s) (deriveInputs key index' s) := by
  unfold deriveInputs
  rw [hi]
  split
  · exact same_bind (same_deriveInput _ _ _ _) fun _ _ => same_bind (same_deriveInput _ _ _ _) fun _ _ => same_pure _ _
  · exact (sameNew_MakePublicKey key).andThen fun _ _ => same_bind (same_deriveInput _ _ _ _) fun _ _ => same_bind (same_deriveInput _ _ _ _) fun _ _ => same_pure _ _

theorem sameNew_deriveOutput (key zout iout : Nat) : SameNew P (deriveOutput key zout iout) (deriveOutput key zout iout) :=
  (sameNew_add28mul8 _ _ _ _).new fun _ _ => (sameNew_add256bits _ _ _ _).new fun _ _ => sameNew_decl.new fun _ h => .bind (same_copyB h _ _ _ _) fun _ _ =>
    .bind (same_copyB h _ _ _ _) fun _ _ => sameNew_decl.new fun _ h' => .bind (same_copyB h' _ _ _ _) fun _ _ => .bind (same_copyB h' _ _ _ _) fun _ _ => .pure h'

theorem sameNew_Derive (H : Hashes) (key n : Nat) {index index' : UInt32} (hi : isHardened index = isHardened index') :
    SameNew P (Derive H key n index) (Derive H key n index') :=
  .bind (same_rdBs _ _ _) fun _ _ => .bind (same_rdBs _ _ _) fun _ _ => sameNew_decl.new fun _ hs => .bind (same_wrBs hs _ _ _ _) fun _ _ =>
    .bind (same_deriveInputs key hi _) fun _ _ => (sameNew_sum _ _ _).new fun _ _ => (sameNew_sum _ _ _).new fun _ _ => sameNew_deriveOutput _ _ _

theorem same_NormalizeBytesForce3rd {b : Nat} (h : P b) : Same P (NormalizeBytesForce3rd b) (NormalizeBytesForce3rd b) :=
  same_bind (same_rdB _ _) fun _ _ => same_bind (same_wrB h _ _ _) fun _ _ => same_bind (same_rdB _ _) fun _ _ => same_bind (same_wrB h _ _ _) fun _ _ =>
    same_bind (same_rdB _ _) fun _ _ => same_wrB h _ _ _

theorem sameNew_FromBip39Entropy (H : Hashes) (entropy n password k : Nat) :
    SameNew P (FromBip39Entropy H entropy n password k) (FromBip39Entropy H entropy n password k) :=
  .bind (same_rdBs _ _ _) fun _ _ => .bind (same_rdBs _ _ _) fun _ _ => sameNew_decl.new fun _ h => .bind (same_wrBs h _ _ _ _) fun _ _ =>
    .bind (same_NormalizeBytesForce3rd h) fun _ _ => .pure h

theorem sameNew_NewXPrv (H : Hashes) (seed : Nat) : SameNew P (NewXPrv H seed) (NewXPrv H seed) :=
  .bind (same_rdBs _ _ _) fun _ _ => (sameNew_sum _ _ _).new fun _ hk => .bind (same_rdB _ _) fun _ _ => .bind (same_wrB hk _ _ _) fun _ _ =>
    .bind (same_rdB _ _) fun _ _ => .bind (same_wrB hk _ _ _) fun _ _ => .bind (same_rdB _ _) fun _ _ => .bind (same_wrB hk _ _ _) fun _ _ =>
    (sameNew_byteArray _ _).new fun _ _ => sameNew_decl.new fun _ ha => .bind (same_copyB ha _ _ _ _) fun _ _ => .bind (same_copyB ha _ _ _ _) fun _ _ =>
    .bind (same_rdBs _ _ _) fun _ _ => (sameNew_sum _ _ _).new fun _ _ => sameNew_decl.new fun _ ho => .bind (same_copyB ho _ _ _ _) fun _ _ =>
    .bind (same_copyB ho _ _ _ _) fun _ _ => .pure ho

end Cardano.Bip32.Acc
