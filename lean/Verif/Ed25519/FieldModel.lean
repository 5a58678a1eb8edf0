import Verif.Ed25519.ScalarModel
/-!
# Model of the field arithmetic of `crypto/edwards25519/edwards25519.go`

A `FieldElement` is ten `int32` variables. Functions write to a destination which may be one of their arguments; each reads its
arguments completely before writing (or works on equal indices only), so they are modelled as functions of values.
-/
set_option autoImplicit false

namespace Cardano.Ed

/-- edwards25519.go:16 `FieldElement`: a list of ten `int32` values. -/
abbrev FE := Limbs

/-- edwards25519.go:20-22 `FeZero`, with the variable of line 18. -/
def FeZero : FE := [0, 0, 0, 0, 0, 0, 0, 0, 0, 0]

/-- edwards25519.go:24-27 `FeOne`. -/
def FeOne : FE := [1, 0, 0, 0, 0, 0, 0, 0, 0, 0]

/-- edwards25519.go:29-40 `FeAdd`. -/
def FeAdd (a b : FE) : FE := List.zipWith (fun x y => wrap 32 (x + y)) a b

/-- edwards25519.go:42-53 `FeSub`. -/
def FeSub (a b : FE) : FE := List.zipWith (fun x y => wrap 32 (x - y)) a b

/-- edwards25519.go:247-258 `FeNeg`. -/
def FeNeg (f : FE) : FE := f.map (fun x => wrap 32 (-x))

/-- `x ^ y` on `int32`. -/
def xor32 (x y : Int) : Int := (BitVec.ofInt 32 x ^^^ BitVec.ofInt 32 y).toInt
/-- `x & y` on `int32`. -/
def and32 (x y : Int) : Int := (BitVec.ofInt 32 x &&& BitVec.ofInt 32 y).toInt

/-- edwards25519.go:63-75 `FeCMove`: the new value of `f`. -/
def FeCMove (f g : FE) (b : Int) : FE :=
  let b := wrap 32 (-b)
  List.zipWith (fun x y => xor32 x (and32 b (xor32 x y))) f g

/-- `c_i = (h_i + (1 << 25)) >> 26;  h_j += c_i;  h_i -= c_i << 26` -/
def c26 (i : Nat) : Op := .carry i (i + 1) 26 33554432 1
/-- `c_i = (h_i + (1 << 24)) >> 25;  h_j += c_i;  h_i -= c_i << 25` -/
def c25 (i : Nat) : Op := .carry i (i + 1) 25 16777216 1

/-- edwards25519.go:270-333: the carries of `FeCombine`. -/
def combineOps : List Op :=
  [c26 0, c26 4, c25 1, c25 5, c26 2, c26 6, c25 3, c25 7, c26 4, c26 8, .carry 9 0 25 16777216 19, c26 0]

/-- edwards25519.go:260-347 `FeCombine`. -/
def FeCombine (h : Limbs) : FE := (exec 64 h combineOps).map (wrap 32)

/-- edwards25519.go:94-107 `FeFromBytes`. The left shifts of at most 24-bit numbers do not overflow. -/
def FeFromBytes (src : Bytes) : FE :=
  FeCombine ([ load4 src 0
    , load3 src 4 <<< 6
    , load3 src 7 <<< 5
    , load3 src 10 <<< 3
    , load3 src 13 <<< 2
    , load4 src 16
    , load3 src 20 <<< 7
    , load3 src 23 <<< 5
    , load3 src 26 <<< 4
    , (load3 src 29 &&& 8388607) <<< 2 ].map (fun n : Nat => (n : Int)))

/-- edwards25519.go:135-145: the quotient computed by `FeToBytes`. -/
def toBytesQ (h : FE) : Int :=
  let q := wrap 32 (wrap 32 (19 * lget h 9) + 16777216) / 2 ^ 25
  let q := wrap 32 (lget h 0 + q) / 2 ^ 26
  let q := wrap 32 (lget h 1 + q) / 2 ^ 25
  let q := wrap 32 (lget h 2 + q) / 2 ^ 26
  let q := wrap 32 (lget h 3 + q) / 2 ^ 25
  let q := wrap 32 (lget h 4 + q) / 2 ^ 26
  let q := wrap 32 (lget h 5 + q) / 2 ^ 25
  let q := wrap 32 (lget h 6 + q) / 2 ^ 26
  let q := wrap 32 (lget h 7 + q) / 2 ^ 25
  let q := wrap 32 (lget h 8 + q) / 2 ^ 26
  wrap 32 (lget h 9 + q) / 2 ^ 25

/-- `carry[i] = h[i] >> k;  h[i+1] += carry[i];  h[i] -= carry[i] << k` -/
def flk (i k : Nat) : Op := .carry i (i + 1) k 0 1

/-- edwards25519.go:151-179: the carries of `FeToBytes`. The last one is dropped by the code; here it is added to an eleventh variable
(the `h10` of the comment at line 180) which nothing reads. -/
def toBytesOps : List Op :=
  [flk 0 26, flk 1 25, flk 2 26, flk 3 25, flk 4 26, flk 5 25, flk 6 26, flk 7 25, flk 8 26, flk 9 25]

/-- edwards25519.go:187-218: the bytes of ten limbs. -/
def packField (h : Limbs) : Bytes :=
  let h0 := lget h 0
  let h1 := lget h 1
  let h2 := lget h 2
  let h3 := lget h 3
  let h4 := lget h 4
  let h5 := lget h 5
  let h6 := lget h 6
  let h7 := lget h 7
  let h8 := lget h 8
  let h9 := lget h 9
  [ lowByte h0 0, lowByte h0 8, lowByte h0 16, joinByte h0 24 h1 2, lowByte h1 6, lowByte h1 14, joinByte h1 22 h2 3
  , lowByte h2 5, lowByte h2 13, joinByte h2 21 h3 5, lowByte h3 3, lowByte h3 11, joinByte h3 19 h4 6, lowByte h4 2
  , lowByte h4 10, lowByte h4 18, lowByte h5 0, lowByte h5 8, lowByte h5 16, joinByte h5 24 h6 1, lowByte h6 7
  , lowByte h6 15, joinByte h6 23 h7 3, lowByte h7 5, lowByte h7 13, joinByte h7 21 h8 4, lowByte h8 4, lowByte h8 12
  , joinByte h8 20 h9 6, lowByte h9 2, lowByte h9 10, lowByte h9 18 ]

/-- edwards25519.go:132-219 `FeToBytes`: the bytes written, and the new value of `h`, which the function changes. -/
def FeToBytes (h : FE) : Bytes × FE :=
  let q := toBytesQ h
  let h := h.set 0 (wrap 32 (lget h 0 + wrap 32 (19 * q)))
  let h := (exec 32 (h ++ [0]) toBytesOps).take 10
  (packField h, h)

/-- edwards25519.go:221-225 `FeIsNegative`: result and new value of the argument. -/
def FeIsNegative (f : FE) : UInt8 × FE :=
  let (s, f) := FeToBytes f
  (s.headD 0 &&& 1, f)

/-- edwards25519.go:227-238 `FeIsNonZero`: result and new value of the argument. -/
def FeIsNonZero (f : FE) : Int × FE :=
  let (s, f) := FeToBytes f
  let x := s.foldl (fun x b => x ||| b) (0 : UInt8)
  let x := x ||| goShr8 x 4
  let x := x ||| goShr8 x 2
  let x := x ||| goShr8 x 1
  ((x &&& 1).toNat, f)

/-- edwards25519.go:377-424: the products of `FeMul`. Variables 0-9 are the limbs of `f`, 10-19 those of `g`. -/
def mulLimbs : List E :=
  let f := E.v
  let f_2 := E.k32 2
  let g := fun i => E.v (10 + i)
  let g_19 := fun i => E.k32 19 (10 + i)
  [ f 0 * g 0 + f_2 1 * g_19 9 + f 2 * g_19 8 + f_2 3 * g_19 7 + f 4 * g_19 6 + f_2 5 * g_19 5 + f 6 * g_19 4 + f_2 7 * g_19 3 + f 8 * g_19 2 + f_2 9 * g_19 1
  , f 0 * g 1 + f 1 * g 0 + f 2 * g_19 9 + f 3 * g_19 8 + f 4 * g_19 7 + f 5 * g_19 6 + f 6 * g_19 5 + f 7 * g_19 4 + f 8 * g_19 3 + f 9 * g_19 2
  , f 0 * g 2 + f_2 1 * g 1 + f 2 * g 0 + f_2 3 * g_19 9 + f 4 * g_19 8 + f_2 5 * g_19 7 + f 6 * g_19 6 + f_2 7 * g_19 5 + f 8 * g_19 4 + f_2 9 * g_19 3
  , f 0 * g 3 + f 1 * g 2 + f 2 * g 1 + f 3 * g 0 + f 4 * g_19 9 + f 5 * g_19 8 + f 6 * g_19 7 + f 7 * g_19 6 + f 8 * g_19 5 + f 9 * g_19 4
  , f 0 * g 4 + f_2 1 * g 3 + f 2 * g 2 + f_2 3 * g 1 + f 4 * g 0 + f_2 5 * g_19 9 + f 6 * g_19 8 + f_2 7 * g_19 7 + f 8 * g_19 6 + f_2 9 * g_19 5
  , f 0 * g 5 + f 1 * g 4 + f 2 * g 3 + f 3 * g 2 + f 4 * g 1 + f 5 * g 0 + f 6 * g_19 9 + f 7 * g_19 8 + f 8 * g_19 7 + f 9 * g_19 6
  , f 0 * g 6 + f_2 1 * g 5 + f 2 * g 4 + f_2 3 * g 3 + f 4 * g 2 + f_2 5 * g 1 + f 6 * g 0 + f_2 7 * g_19 9 + f 8 * g_19 8 + f_2 9 * g_19 7
  , f 0 * g 7 + f 1 * g 6 + f 2 * g 5 + f 3 * g 4 + f 4 * g 3 + f 5 * g 2 + f 6 * g 1 + f 7 * g 0 + f 8 * g_19 9 + f 9 * g_19 8
  , f 0 * g 8 + f_2 1 * g 7 + f 2 * g 6 + f_2 3 * g 5 + f 4 * g 4 + f_2 5 * g 3 + f 6 * g 2 + f_2 7 * g 1 + f 8 * g 0 + f_2 9 * g_19 9
  , f 0 * g 9 + f 1 * g 8 + f 2 * g 7 + f 3 * g 6 + f 4 * g 5 + f 5 * g 4 + f 6 * g 3 + f 7 * g 2 + f 8 * g 1 + f 9 * g 0 ]

/-- edwards25519.go:376-427 `FeMul`. -/
def FeMul (f g : FE) : FE := FeCombine (mulLimbs.map (E.eval (f ++ g)))

/-- edwards25519.go:429-466 `feSquare`. -/
def squareLimbs : List E :=
  let f := E.v
  let f_2 := E.k32 2
  let f_19 := E.k64 19
  let f_38 := E.k64 38
  [ f 0 * f 0 + f_2 1 * f_38 9 + f_2 2 * f_19 8 + f_2 3 * f_38 7 + f_2 4 * f_19 6 + f 5 * f_38 5
  , f_2 0 * f 1 + f 2 * f_38 9 + f_2 3 * f_19 8 + f 4 * f_38 7 + f_2 5 * f_19 6
  , f_2 0 * f 2 + f_2 1 * f 1 + f_2 3 * f_38 9 + f_2 4 * f_19 8 + f_2 5 * f_38 7 + f 6 * f_19 6
  , f_2 0 * f 3 + f_2 1 * f 2 + f 4 * f_38 9 + f_2 5 * f_19 8 + f 6 * f_38 7
  , f_2 0 * f 4 + f_2 1 * f_2 3 + f 2 * f 2 + f_2 5 * f_38 9 + f_2 6 * f_19 8 + f 7 * f_38 7
  , f_2 0 * f 5 + f_2 1 * f 4 + f_2 2 * f 3 + f 6 * f_38 9 + f_2 7 * f_19 8
  , f_2 0 * f 6 + f_2 1 * f_2 5 + f_2 2 * f 4 + f_2 3 * f 3 + f_2 7 * f_38 9 + f 8 * f_19 8
  , f_2 0 * f 7 + f_2 1 * f 6 + f_2 2 * f 5 + f_2 3 * f 4 + f 8 * f_38 9
  , f_2 0 * f 8 + f_2 1 * f_2 7 + f_2 2 * f 6 + f_2 3 * f_2 5 + f 4 * f 4 + f 9 * f_38 9
  , f_2 0 * f 9 + f_2 1 * f 8 + f_2 2 * f 7 + f_2 3 * f 6 + f_2 4 * f 5 ]

/-- edwards25519.go:475-478 `FeSquare`. -/
def FeSquare (f : FE) : FE := FeCombine (squareLimbs.map (E.eval f))

/-- edwards25519.go:490-505 `FeSquare2`. -/
def FeSquare2 (f : FE) : FE := FeCombine ((squareLimbs.map (E.eval f)).map (fun h => wrap 64 (h + h)))

/-- `for i = 1; i < n; i++ { FeSquare(&t, &t) }` -/
def sqLoop (n : Nat) (t : FE) : FE := Nat.repeat FeSquare (n - 1) t

/-- edwards25519.go:507-560 `FeInvert`. -/
def FeInvert (z : FE) : FE :=
  let t0 := FeSquare z
  let t1 := FeSquare t0
  let t1 := sqLoop 2 t1
  let t1 := FeMul z t1
  let t0 := FeMul t0 t1
  let t2 := FeSquare t0
  let t1 := FeMul t1 t2
  let t2 := FeSquare t1
  let t2 := sqLoop 5 t2
  let t1 := FeMul t2 t1
  let t2 := FeSquare t1
  let t2 := sqLoop 10 t2
  let t2 := FeMul t2 t1
  let t3 := FeSquare t2
  let t3 := sqLoop 20 t3
  let t2 := FeMul t3 t2
  let t2 := FeSquare t2
  let t2 := sqLoop 10 t2
  let t1 := FeMul t2 t1
  let t2 := FeSquare t1
  let t2 := sqLoop 50 t2
  let t2 := FeMul t2 t1
  let t3 := FeSquare t2
  let t3 := sqLoop 100 t3
  let t2 := FeMul t3 t2
  let t2 := FeSquare t2
  let t2 := sqLoop 50 t2
  let t1 := FeMul t2 t1
  let t1 := FeSquare t1
  let t1 := sqLoop 5 t1
  FeMul t1 t0

/-- edwards25519.go:562-621 `fePow22523`. -/
def fePow22523 (z : FE) : FE :=
  let t0 := FeSquare z
  let t0 := sqLoop 1 t0
  let t1 := FeSquare t0
  let t1 := sqLoop 2 t1
  let t1 := FeMul z t1
  let t0 := FeMul t0 t1
  let t0 := FeSquare t0
  let t0 := sqLoop 1 t0
  let t0 := FeMul t1 t0
  let t1 := FeSquare t0
  let t1 := sqLoop 5 t1
  let t0 := FeMul t1 t0
  let t1 := FeSquare t0
  let t1 := sqLoop 10 t1
  let t1 := FeMul t1 t0
  let t2 := FeSquare t1
  let t2 := sqLoop 20 t2
  let t1 := FeMul t2 t1
  let t1 := FeSquare t1
  let t1 := sqLoop 10 t1
  let t0 := FeMul t1 t0
  let t1 := FeSquare t0
  let t1 := sqLoop 50 t1
  let t1 := FeMul t1 t0
  let t2 := FeSquare t1
  let t2 := sqLoop 100 t2
  let t1 := FeMul t2 t1
  let t1 := FeSquare t1
  let t1 := sqLoop 50 t1
  let t0 := FeMul t1 t0
  let t0 := FeSquare t0
  let t0 := sqLoop 2 t0
  FeMul t0 z

end Cardano.Ed
