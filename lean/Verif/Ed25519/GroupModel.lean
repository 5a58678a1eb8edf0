import Verif.Ed25519.FieldModel
/-!
# Model of the group operations of `edwards25519.go`

Go methods write their result through a pointer; the models return it. That this makes no difference, although the calls in the code pass the
same variable as result and argument in places, is proved in `PointersProof`, from the model with pointers in `Pointers`.
-/
set_option autoImplicit false

namespace Cardano.Ed

/-- edwards25519.go:632-634 `ProjectiveGroupElement`. -/
structure Proj where
  X : FE
  Y : FE
  Z : FE
  deriving DecidableEq

/-- edwards25519.go:636-638 `ExtendedGroupElement`. -/
structure Ext where
  X : FE
  Y : FE
  Z : FE
  T : FE
  deriving DecidableEq

/-- edwards25519.go:640-642 `CompletedGroupElement`. -/
structure Compl where
  X : FE
  Y : FE
  Z : FE
  T : FE
  deriving DecidableEq

/-- edwards25519.go:644-646 `PreComputedGroupElement`. -/
structure PreComp where
  yPlusX : FE
  yMinusX : FE
  xy2d : FE
  deriving DecidableEq

/-- edwards25519.go:648-650 `CachedGroupElement`. -/
structure Cached where
  yPlusX : FE
  yMinusX : FE
  Z : FE
  T2d : FE
  deriving DecidableEq

/-- const.go:11-13 `d`. -/
def d : FE := [-10913610, 13857413, -15372611, 6949391, 114729, -8787816, -6275908, -3247719, -18696448, -12055116]

/-- const.go:16-18 `d2`. -/
def d2 : FE := [-21827239, -5839606, -30745221, 13898782, 229458, 15978800, -12551817, -6495438, 29715968, 9444199]

/-- const.go:21-23 `SqrtM1`. -/
def SqrtM1 : FE := [-32595792, -7943725, 9377950, 3500415, 12389472, -272473, -25146209, -2005654, 326686, 11406482]

/-- edwards25519.go:652-656 `(*ProjectiveGroupElement).Zero`. -/
def Proj.Zero : Proj := ⟨FeZero, FeOne, FeOne⟩

/-- edwards25519.go:658-670 `(*ProjectiveGroupElement).Double`. -/
def Proj.Double (p : Proj) : Compl :=
  let rX := FeSquare p.X
  let rZ := FeSquare p.Y
  let rT := FeSquare2 p.Z
  let rY := FeAdd p.X p.Y
  let t0 := FeSquare rY
  let rY := FeAdd rZ rX
  let rZ := FeSub rZ rX
  let rX := FeSub t0 rY
  let rT := FeSub rT rZ
  ⟨rX, rY, rZ, rT⟩

/-- `s[31] ^= b << 7` -/
def flipTop (s : Bytes) (b : UInt8) : Bytes := s.set 31 (s.getD 31 0 ^^^ (b <<< 7))

/-- edwards25519.go:672-680 `(*ProjectiveGroupElement).ToBytes`. -/
def Proj.ToBytes (p : Proj) : Bytes :=
  let recip := FeInvert p.Z
  let x := FeMul p.X recip
  let y := FeMul p.Y recip
  let s := (FeToBytes y).1
  flipTop s (FeIsNegative x).1

/-- edwards25519.go:682-687 `(*ExtendedGroupElement).Zero`. -/
def Ext.Zero : Ext := ⟨FeZero, FeOne, FeOne, FeZero⟩

/-- edwards25519.go:702-706 `(*ExtendedGroupElement).ToProjective`. -/
def Ext.ToProjective (p : Ext) : Proj := ⟨p.X, p.Y, p.Z⟩

/-- edwards25519.go:689-693 `(*ExtendedGroupElement).Double`. -/
def Ext.Double (p : Ext) : Compl := p.ToProjective.Double

/-- edwards25519.go:695-700 `(*ExtendedGroupElement).ToCached`. -/
def Ext.ToCached (p : Ext) : Cached := ⟨FeAdd p.Y p.X, FeSub p.Y p.X, p.Z, FeMul p.T d2⟩

/-- edwards25519.go:708-716 `(*ExtendedGroupElement).ToBytes`. -/
def Ext.ToBytes (p : Ext) : Bytes :=
  let recip := FeInvert p.Z
  let x := FeMul p.X recip
  let y := FeMul p.Y recip
  let s := (FeToBytes y).1
  flipTop s (FeIsNegative x).1

/-- edwards25519.go:718-762 `(*ExtendedGroupElement).FromBytes`: the point, or nothing where the code returns `false`. The reversed copy
`tmp2` of lines 751-753 is never read and is left out; that `FeToBytes` and `FeIsNegative` normalise `p.X` in place is kept. -/
def Ext.FromBytes (s : Bytes) : Option Ext :=
  let Y := FeFromBytes s
  let Z := FeOne
  let u := FeSquare Y
  let v := FeMul u d
  let u := FeSub u Z
  let v := FeAdd v Z
  let v3 := FeSquare v
  let v3 := FeMul v3 v
  let X := FeSquare v3
  let X := FeMul X v
  let X := FeMul X u
  let X := fePow22523 X
  let X := FeMul X v3
  let X := FeMul X u
  let vxx := FeSquare X
  let vxx := FeMul vxx v
  let check := FeSub vxx u
  let fix (X : FE) : Option Ext :=
    let (neg, X) := FeIsNegative X
    let X := if neg ≠ goShr8 (s.getD 31 0) 7 then FeNeg X else X
    some ⟨X, Y, Z, FeMul X Y⟩
  if (FeIsNonZero check).1 = 1 then
    let check := FeAdd vxx u
    if (FeIsNonZero check).1 = 1 then none
    else
      let X := FeMul X SqrtM1
      let X := (FeToBytes X).2
      fix X
  else fix X

/-- edwards25519.go:764-768 `(*CompletedGroupElement).ToProjective`. -/
def Compl.ToProjective (p : Compl) : Proj := ⟨FeMul p.X p.T, FeMul p.Y p.Z, FeMul p.Z p.T⟩

/-- edwards25519.go:770-775 `(*CompletedGroupElement).ToExtended`. -/
def Compl.ToExtended (p : Compl) : Ext := ⟨FeMul p.X p.T, FeMul p.Y p.Z, FeMul p.Z p.T, FeMul p.X p.Y⟩

/-- edwards25519.go:777-781 `(*PreComputedGroupElement).Zero`. -/
def PreComp.Zero : PreComp := ⟨FeOne, FeOne, FeZero⟩

/-- edwards25519.go:783-797 `geAdd`. -/
def geAdd (p : Ext) (q : Cached) : Compl :=
  let rX := FeAdd p.Y p.X
  let rY := FeSub p.Y p.X
  let rZ := FeMul rX q.yPlusX
  let rY := FeMul rY q.yMinusX
  let rT := FeMul q.T2d p.T
  let rX := FeMul p.Z q.Z
  let t0 := FeAdd rX rX
  let rX := FeSub rZ rY
  let rY := FeAdd rZ rY
  let rZ := FeAdd t0 rT
  let rT := FeSub t0 rT
  ⟨rX, rY, rZ, rT⟩

/-- edwards25519.go:799-813 `geSub`. -/
def geSub (p : Ext) (q : Cached) : Compl :=
  let rX := FeAdd p.Y p.X
  let rY := FeSub p.Y p.X
  let rZ := FeMul rX q.yMinusX
  let rY := FeMul rY q.yPlusX
  let rT := FeMul q.T2d p.T
  let rX := FeMul p.Z q.Z
  let t0 := FeAdd rX rX
  let rX := FeSub rZ rY
  let rY := FeAdd rZ rY
  let rZ := FeSub t0 rT
  let rT := FeAdd t0 rT
  ⟨rX, rY, rZ, rT⟩

/-- edwards25519.go:815-828 `geMixedAdd`. -/
def geMixedAdd (p : Ext) (q : PreComp) : Compl :=
  let rX := FeAdd p.Y p.X
  let rY := FeSub p.Y p.X
  let rZ := FeMul rX q.yPlusX
  let rY := FeMul rY q.yMinusX
  let rT := FeMul q.xy2d p.T
  let t0 := FeAdd p.Z p.Z
  let rX := FeSub rZ rY
  let rY := FeAdd rZ rY
  let rZ := FeAdd t0 rT
  let rT := FeSub t0 rT
  ⟨rX, rY, rZ, rT⟩

/-- edwards25519.go:830-843 `geMixedSub`. -/
def geMixedSub (p : Ext) (q : PreComp) : Compl :=
  let rX := FeAdd p.Y p.X
  let rY := FeSub p.Y p.X
  let rZ := FeMul rX q.yMinusX
  let rY := FeMul rY q.yPlusX
  let rT := FeMul q.xy2d p.T
  let t0 := FeAdd p.Z p.Z
  let rX := FeSub rZ rY
  let rY := FeAdd rZ rY
  let rZ := FeSub t0 rT
  let rT := FeAdd t0 rT
  ⟨rX, rY, rZ, rT⟩

end Cardano.Ed
