import Verif.Ed25519.Tables
/-!
# Model of the scalar multiplications of `edwards25519.go`

An `[n]int8` array is a list of integers of that length; indices are in range throughout (the properties prove the digits within the
bounds that make the table indices valid).
-/
set_option autoImplicit false

namespace Cardano.Ed

/-- edwards25519.go:932-936 `equal`. -/
def equal (b c : Int) : Int :=
  let x := BitVec.ofInt 32 (xor32 b c)
  let x := x - 1
  (x >>> 31).toInt

/-- edwards25519.go:939-941 `negative`. -/
def negative (b : Int) : Int := and32 (b / 2 ^ 31) 1

/-- edwards25519.go:943-947 `PreComputedGroupElementCMove`: the new value of `t`. -/
def PreComp.CMove (t u : PreComp) (b : Int) : PreComp :=
  ⟨FeCMove t.yPlusX u.yPlusX b, FeCMove t.yMinusX u.yMinusX b, FeCMove t.xy2d u.xy2d b⟩

/-- `base[pos][i]` -/
def baseAt (pos i : Nat) : PreComp := (base.getD pos []).getD i PreComp.Zero

/-- edwards25519.go:949-962 `selectPoint`. -/
def selectPoint (pos : Nat) (b : Int) : PreComp :=
  let bNegative := negative b
  let bAbs := wrap 32 (b - wrap 32 (and32 (wrap 32 (-bNegative)) b * 2))
  let t := (List.range 8).foldl (fun (t : PreComp) i => t.CMove (baseAt pos i) (equal bAbs (i + 1))) PreComp.Zero
  let minusT : PreComp := ⟨t.yMinusX, t.yPlusX, FeNeg t.xy2d⟩
  t.CMove minusT bNegative

/-- edwards25519.go:973-976, the loop splitting bytes into halves. -/
def nibbles : Bytes → List Int
  | [] => []
  | v :: a => wrap 8 ((v &&& 15).toNat) :: wrap 8 ((v >>> 4 &&& 15).toNat) :: nibbles a

/-- edwards25519.go:980-986, the carry loop over the digits: all but the last are reduced. -/
def recode : Int → List Int → List Int
  | _, [] => []
  | carry, [e] => [wrap 8 (e + carry)]
  | carry, e :: e' :: es =>
    let e := wrap 8 (e + carry)
    let carry := wrap 8 (e + 8) / 2 ^ 4
    wrap 8 (e - wrap 8 (carry * 2 ^ 4)) :: recode carry (e' :: es)

/-- edwards25519.go:992-996 and 1009-1013, one loop with `i = 2 * pos + odd`. -/
def baseLoop (e : List Int) (odd : Nat) (h : Ext) : Ext :=
  (List.range 32).foldl (fun h pos => (geMixedAdd h (selectPoint pos (lget e (2 * pos + odd)))).ToExtended) h

/-- edwards25519.go:970-1014 `GeScalarMultBase`. -/
def GeScalarMultBase (a : Bytes) : Ext :=
  let e := recode 0 (nibbles a)
  let h := baseLoop e 1 Ext.Zero
  let s := h.Double.ToProjective
  let s := s.Double.ToProjective
  let s := s.Double.ToProjective
  let h := s.Double.ToExtended
  baseLoop e 0 h

/-- edwards25519.go:847-849 -/
def slideInit (a : Bytes) : List Int := (List.range 256).map fun i => wrap 8 ((1 &&& (a.getD (i / 8) 0 >>> UInt8.ofNat (i % 8))).toNat)

/-- edwards25519.go:861-867: the carry; `n` is the number of positions left, `256 - k`. -/
def slideCarry : (n : Nat) → (r : List Int) → (k : Nat) → List Int
  | 0, r, _ => r
  | n + 1, r, k => if lget r k = 0 then r.set k 1 else slideCarry n (r.set k 0) (k + 1)

/-- edwards25519.go:853-871: the loop over `b`, of which the list gives the remaining values. -/
def slideInner (i : Nat) : List Nat → List Int → List Int
  | [], r => r
  | b :: bs, r =>
    if i + b < 256 then
      if lget r (i + b) ≠ 0 then
        let sh := wrap 8 (lget r (i + b) * 2 ^ b)
        if wrap 8 (lget r i + sh) ≤ 15 then
          slideInner i bs ((r.set i (wrap 8 (lget r i + sh))).set (i + b) 0)
        else if wrap 8 (lget r i - sh) ≥ -15 then
          slideInner i bs (slideCarry (256 - (i + b)) (r.set i (wrap 8 (lget r i - sh))) (i + b))
        else r
      else slideInner i bs r
    else r

/-- edwards25519.go:845-873 `slide`. -/
def slide (a : Bytes) : List Int :=
  (List.range 256).foldl (fun r i => if lget r i ≠ 0 then slideInner i [1, 2, 3, 4, 5, 6] r else r) (slideInit a)

/-- edwards25519.go:889-897: `A, 3A, 5A, ..., 15A`. -/
def oddMultiples (A : Ext) : List Cached :=
  let A2 := A.Double.ToExtended
  (List.range 7).foldl (fun Ai i => Ai ++ [(geAdd A2 (Ai.getD i ⟨FeZero, FeZero, FeZero, FeZero⟩)).ToExtended.ToCached]) [A.ToCached]

/-- edwards25519.go:907-927: one iteration of the main loop, with `aSlide[i]` and `bSlide[i]`. -/
def doubleStep (Ai : List Cached) (r : Proj) (da db : Int) : Proj :=
  let t := r.Double
  let t := if da > 0 then geAdd t.ToExtended (Ai.getD (da / 2).toNat ⟨FeZero, FeZero, FeZero, FeZero⟩)
    else if da < 0 then geSub t.ToExtended (Ai.getD (wrap 8 (-da) / 2).toNat ⟨FeZero, FeZero, FeZero, FeZero⟩) else t
  let t := if db > 0 then geMixedAdd t.ToExtended (bi.getD (db / 2).toNat PreComp.Zero)
    else if db < 0 then geMixedSub t.ToExtended (bi.getD (wrap 8 (-db) / 2).toNat PreComp.Zero) else t
  t.ToProjective

/-- edwards25519.go:879-928 `GeDoubleScalarMultVartime`. The indices run down from 255; those before the first nonzero digit are
skipped by the loop of lines 901-905. -/
def GeDoubleScalarMultVartime (a : Bytes) (A : Ext) (b : Bytes) : Proj :=
  let aSlide := slide a
  let bSlide := slide b
  let Ai := oddMultiples A
  let is := (List.range 256).reverse.dropWhile fun i => lget aSlide i = 0 && lget bSlide i = 0
  is.foldl (fun r i => doubleStep Ai r (lget aSlide i) (lget bSlide i)) Proj.Zero

end Cardano.Ed
