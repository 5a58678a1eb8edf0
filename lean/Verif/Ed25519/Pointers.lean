import Verif.Ed25519.ScalarMultModel
/-!
# Model of `edwards25519.go` with pointers

The functions of the package write their results through pointers. The models in `FieldModel`, `GroupModel` and `ScalarMultModel` return
them instead. Here the same functions are modelled on a memory, statement by statement as in the source, with the result written limb by limb
and local variables allocated by each call; the lemmas say that both models agree, whichever variables coincide.

An object is a variable of one of the types of the package (a `FieldElement`, or a group element, whose fields are numbered in the order of
their declaration). Two variables of different types never share memory, and neither do two different variables of one type. Byte arrays are
not in this memory: no function writes a byte array and reads one afterwards, except `FeToBytes`, whose argument is a `FieldElement`.
-/
set_option autoImplicit false

namespace Cardano.Ed.Ptr

/-- A `*FieldElement`: the object it points into, and the number of the field. -/
abbrev Loc := Nat × Nat

/-- Objects are numbered in the order of allocation; `cell o f i` is limb `i` of field `f` of object `o`. -/
structure Mem where
  next : Nat
  cell : Nat → Nat → Nat → Int

/-- The value of a `FieldElement`. -/
def Mem.fe (m : Mem) (p : Loc) : FE := (List.range 10).map (m.cell p.1 p.2)

/-- `p[i] = v` -/
def Mem.wr (m : Mem) (p : Loc) (i : Nat) (v : Int) : Mem :=
  { m with cell := fun o f j => if o = p.1 ∧ f = p.2 ∧ j = i then v else m.cell o f j }

/-- Declaration of a variable: a new object, zero. -/
def Mem.new (m : Mem) : Nat × Mem :=
  (m.next, { next := m.next + 1, cell := fun o f j => if o = m.next then 0 else m.cell o f j })

/-! ## Field elements -/

/-- `dst[0] = ... a[0] ... b[0]; ...; dst[9] = ... a[9] ... b[9]` -/
def limbwise (g : Int → Int → Int) (dst a b : Loc) (m : Mem) : Mem :=
  (List.range 10).foldl (fun m i => m.wr dst i (g (m.cell a.1 a.2 i) (m.cell b.1 b.2 i))) m

/-- edwards25519.go:55-57 `FeCopy`. -/
def FeCopy (dst src : Loc) (m : Mem) : Mem := limbwise (fun x _ => x) dst src src m

/-- edwards25519.go:18 the variable `zero`. -/
def zeroL : Loc := (0, 0)
/-- const.go:11 the variable `d`. -/
def dL : Loc := (1, 0)
/-- const.go:16 the variable `d2`. -/
def d2L : Loc := (2, 0)
/-- const.go:21 the variable `SqrtM1`. -/
def sqrtM1L : Loc := (3, 0)
/-- const.go:77 the variable `base`: `base[pos][i]`. -/
def baseO (pos i : Nat) : Nat := 4 + 8 * pos + i
/-- const.go:32 the variable `bi`: `bi[j]`. -/
def biO (j : Nat) : Nat := 260 + j
/-- The first object that is not a variable of the package. -/
def firstFree : Nat := 268

/-- edwards25519.go:20-22 `FeZero`. -/
def FeZero (p : Loc) (m : Mem) : Mem := FeCopy p zeroL m

/-- edwards25519.go:24-27 `FeOne`. -/
def FeOne (p : Loc) (m : Mem) : Mem := (FeZero p m).wr p 0 1

/-- edwards25519.go:29-40 `FeAdd`. -/
def FeAdd (dst a b : Loc) (m : Mem) : Mem := limbwise (fun x y => wrap 32 (x + y)) dst a b m

/-- edwards25519.go:42-53 `FeSub`. -/
def FeSub (dst a b : Loc) (m : Mem) : Mem := limbwise (fun x y => wrap 32 (x - y)) dst a b m

/-- edwards25519.go:63-75 `FeCMove`. -/
def FeCMove (f g : Loc) (b : Int) (m : Mem) : Mem :=
  limbwise (fun x y => xor32 x (and32 (wrap 32 (-b)) (xor32 x y))) f f g m

/-- edwards25519.go:247-258 `FeNeg`. -/
def FeNeg (h f : Loc) (m : Mem) : Mem := limbwise (fun x _ => wrap 32 (-x)) h f f m

/-- edwards25519.go:260-347 `FeCombine`: the carries are done on local variables, lines 337-346 write them to `h`. -/
def FeCombine (h : Loc) (l : Limbs) (m : Mem) : Mem :=
  (List.range 10).foldl (fun m i => m.wr h i (lget (Ed.FeCombine l) i)) m

/-- edwards25519.go:94-107 `FeFromBytes`. -/
def FeFromBytes (dst : Loc) (src : Bytes) (m : Mem) : Mem :=
  FeCombine dst ([ load4 src 0
    , load3 src 4 <<< 6
    , load3 src 7 <<< 5
    , load3 src 10 <<< 3
    , load3 src 13 <<< 2
    , load4 src 16
    , load3 src 20 <<< 7
    , load3 src 23 <<< 5
    , load3 src 26 <<< 4
    , (load3 src 29 &&& 8388607) <<< 2 ].map (fun n : Nat => (n : Int))) m

/-- edwards25519.go:132-219 `FeToBytes`, which changes `h` in place: bytes and memory. -/
def FeToBytes (h : Loc) (m : Mem) : Bytes × Mem :=
  let r := Ed.FeToBytes (m.fe h)
  (r.1, (List.range 10).foldl (fun m i => m.wr h i (lget r.2 i)) m)

/-- edwards25519.go:221-225 `FeIsNegative`. -/
def FeIsNegative (f : Loc) (m : Mem) : UInt8 × Mem :=
  let (s, m) := FeToBytes f m
  (s.headD 0 &&& 1, m)

/-- edwards25519.go:227-238 `FeIsNonZero`. -/
def FeIsNonZero (f : Loc) (m : Mem) : Int × Mem :=
  let (s, m) := FeToBytes f m
  let x := s.foldl (fun x b => x ||| b) (0 : UInt8)
  let x := x ||| goShr8 x 4
  let x := x ||| goShr8 x 2
  let x := x ||| goShr8 x 1
  ((x &&& 1).toNat, m)

/-- edwards25519.go:376-427 `FeMul`: all limbs are read before `FeCombine` is called. -/
def FeMul (h f g : Loc) (m : Mem) : Mem := FeCombine h (mulLimbs.map (E.eval (m.fe f ++ m.fe g))) m

/-- edwards25519.go:475-478 `FeSquare`. -/
def FeSquare (h f : Loc) (m : Mem) : Mem := FeCombine h (squareLimbs.map (E.eval (m.fe f))) m

/-- edwards25519.go:490-505 `FeSquare2`. -/
def FeSquare2 (h f : Loc) (m : Mem) : Mem :=
  FeCombine h ((squareLimbs.map (E.eval (m.fe f))).map (fun h => wrap 64 (h + h))) m

/-- `for i = 1; i < n; i++ { FeSquare(&t, &t) }` -/
def sqLoop (n : Nat) (t : Loc) (m : Mem) : Mem := Nat.repeat (FeSquare t t) (n - 1) m

/-- edwards25519.go:507-560 `FeInvert`. -/
def FeInvert (out z : Loc) (m : Mem) : Mem :=
  let (t0, m) := m.new
  let (t1, m) := m.new
  let (t2, m) := m.new
  let (t3, m) := m.new
  let t0 := (t0, 0)
  let t1 := (t1, 0)
  let t2 := (t2, 0)
  let t3 := (t3, 0)
  m |> FeSquare t0 z |> FeSquare t1 t0 |> sqLoop 2 t1 |> FeMul t1 z t1 |> FeMul t0 t0 t1 |> FeSquare t2 t0 |> FeMul t1 t1 t2
    |> FeSquare t2 t1 |> sqLoop 5 t2 |> FeMul t1 t2 t1 |> FeSquare t2 t1 |> sqLoop 10 t2 |> FeMul t2 t2 t1
    |> FeSquare t3 t2 |> sqLoop 20 t3 |> FeMul t2 t3 t2 |> FeSquare t2 t2 |> sqLoop 10 t2 |> FeMul t1 t2 t1
    |> FeSquare t2 t1 |> sqLoop 50 t2 |> FeMul t2 t2 t1 |> FeSquare t3 t2 |> sqLoop 100 t3 |> FeMul t2 t3 t2
    |> FeSquare t2 t2 |> sqLoop 50 t2 |> FeMul t1 t2 t1 |> FeSquare t1 t1 |> sqLoop 5 t1 |> FeMul out t1 t0

/-- edwards25519.go:562-621 `fePow22523`. -/
def fePow22523 (out z : Loc) (m : Mem) : Mem :=
  let (t0, m) := m.new
  let (t1, m) := m.new
  let (t2, m) := m.new
  let t0 := (t0, 0)
  let t1 := (t1, 0)
  let t2 := (t2, 0)
  m |> FeSquare t0 z |> sqLoop 1 t0 |> FeSquare t1 t0 |> sqLoop 2 t1 |> FeMul t1 z t1 |> FeMul t0 t0 t1 |> FeSquare t0 t0 |> sqLoop 1 t0
    |> FeMul t0 t1 t0 |> FeSquare t1 t0 |> sqLoop 5 t1 |> FeMul t0 t1 t0 |> FeSquare t1 t0 |> sqLoop 10 t1 |> FeMul t1 t1 t0
    |> FeSquare t2 t1 |> sqLoop 20 t2 |> FeMul t1 t2 t1 |> FeSquare t1 t1 |> sqLoop 10 t1 |> FeMul t0 t1 t0
    |> FeSquare t1 t0 |> sqLoop 50 t1 |> FeMul t1 t1 t0 |> FeSquare t2 t1 |> sqLoop 100 t2 |> FeMul t1 t2 t1
    |> FeSquare t1 t1 |> sqLoop 50 t1 |> FeMul t0 t1 t0 |> FeSquare t0 t0 |> sqLoop 2 t0 |> FeMul out t0 z

/-! ## Group elements -/

/-- The fields of a group element, in the order of lines 632-650. -/
def Mem.proj (m : Mem) (o : Nat) : Proj := ⟨m.fe (o, 0), m.fe (o, 1), m.fe (o, 2)⟩
@[inherit_doc Mem.proj] def Mem.ext (m : Mem) (o : Nat) : Ext := ⟨m.fe (o, 0), m.fe (o, 1), m.fe (o, 2), m.fe (o, 3)⟩
@[inherit_doc Mem.proj] def Mem.compl (m : Mem) (o : Nat) : Compl := ⟨m.fe (o, 0), m.fe (o, 1), m.fe (o, 2), m.fe (o, 3)⟩
@[inherit_doc Mem.proj] def Mem.pre (m : Mem) (o : Nat) : PreComp := ⟨m.fe (o, 0), m.fe (o, 1), m.fe (o, 2)⟩
@[inherit_doc Mem.proj] def Mem.cached (m : Mem) (o : Nat) : Cached := ⟨m.fe (o, 0), m.fe (o, 1), m.fe (o, 2), m.fe (o, 3)⟩

/-- Field `f` of an entry of a table. -/
def entryField (e : PreComp) (f : Nat) : FE := ([e.yPlusX, e.yMinusX, e.xy2d] : List FE).getD f []

/-- const.go:11-1358 and edwards25519.go:18: the values of the variables of the package when the program starts. -/
def start : Mem where
  next := firstFree
  cell o f i :=
    lget (if o = 0 then []
      else if o = 1 then d
      else if o = 2 then d2
      else if o = 3 then SqrtM1
      else if o < 260 then entryField (baseAt ((o - 4) / 8) ((o - 4) % 8)) f
      else if o < 268 then entryField (bi.getD (o - 260) PreComp.Zero) f
      else []) i

/-- edwards25519.go:652-656 `(*ProjectiveGroupElement).Zero`. -/
def projZero (p : Nat) (m : Mem) : Mem := m |> FeZero (p, 0) |> FeOne (p, 1) |> FeOne (p, 2)

/-- edwards25519.go:658-670 `(*ProjectiveGroupElement).Double`. -/
def projDouble (p r : Nat) (m : Mem) : Mem :=
  let (t0, m) := m.new
  m |> FeSquare (r, 0) (p, 0) |> FeSquare (r, 2) (p, 1) |> FeSquare2 (r, 3) (p, 2) |> FeAdd (r, 1) (p, 0) (p, 1) |> FeSquare (t0, 0) (r, 1)
    |> FeAdd (r, 1) (r, 2) (r, 0) |> FeSub (r, 2) (r, 2) (r, 0) |> FeSub (r, 0) (t0, 0) (r, 1) |> FeSub (r, 3) (r, 3) (r, 2)

/-- edwards25519.go:672-680 and 708-716 `ToBytes`, the same lines for both types; bytes and memory. -/
def toBytes (p : Nat) (m : Mem) : Bytes × Mem :=
  let (recip, m) := m.new
  let (x, m) := m.new
  let (y, m) := m.new
  let m := m |> FeInvert (recip, 0) (p, 2) |> FeMul (x, 0) (p, 0) (recip, 0) |> FeMul (y, 0) (p, 1) (recip, 0)
  let (s, m) := FeToBytes (y, 0) m
  let (b, m) := FeIsNegative (x, 0) m
  (flipTop s b, m)

/-- edwards25519.go:682-687 `(*ExtendedGroupElement).Zero`. -/
def extZero (p : Nat) (m : Mem) : Mem := m |> FeZero (p, 0) |> FeOne (p, 1) |> FeOne (p, 2) |> FeZero (p, 3)

/-- edwards25519.go:702-706 `(*ExtendedGroupElement).ToProjective`. -/
def extToProjective (p r : Nat) (m : Mem) : Mem := m |> FeCopy (r, 0) (p, 0) |> FeCopy (r, 1) (p, 1) |> FeCopy (r, 2) (p, 2)

/-- edwards25519.go:689-693 `(*ExtendedGroupElement).Double`. -/
def extDouble (p r : Nat) (m : Mem) : Mem :=
  let (q, m) := m.new
  m |> extToProjective p q |> projDouble q r

/-- edwards25519.go:695-700 `(*ExtendedGroupElement).ToCached`. -/
def toCached (p r : Nat) (m : Mem) : Mem :=
  m |> FeAdd (r, 0) (p, 1) (p, 0) |> FeSub (r, 1) (p, 1) (p, 0) |> FeCopy (r, 2) (p, 2) |> FeMul (r, 3) (p, 3) d2L

/-- edwards25519.go:721-732, of `FromBytes`: before the exponentiation. -/
def fbBefore (p : Nat) (s : Bytes) (u v v3 : Nat) (m : Mem) : Mem :=
  m |> FeFromBytes (p, 1) s |> FeOne (p, 2) |> FeSquare (u, 0) (p, 1) |> FeMul (v, 0) (u, 0) dL |> FeSub (u, 0) (u, 0) (p, 2)
    |> FeAdd (v, 0) (v, 0) (p, 2) |> FeSquare (v3, 0) (v, 0) |> FeMul (v3, 0) (v3, 0) (v, 0) |> FeSquare (p, 0) (v3, 0)
    |> FeMul (p, 0) (p, 0) (v, 0) |> FeMul (p, 0) (p, 0) (u, 0)

/-- edwards25519.go:735-742, of `FromBytes`: after it. -/
def fbAfter (p u v v3 vxx check : Nat) (m : Mem) : Mem :=
  m |> FeMul (p, 0) (p, 0) (v3, 0)
    |> FeMul (p, 0) (p, 0) (u, 0) |> FeSquare (vxx, 0) (p, 0) |> FeMul (vxx, 0) (vxx, 0) (v, 0) |> FeSub (check, 0) (vxx, 0) (u, 0)

/-- edwards25519.go:756-761, the end of `FromBytes`; result and memory. -/
def fbFinish (p : Nat) (s : Bytes) (m : Mem) : Bool × Mem :=
  let (neg, m) := FeIsNegative (p, 0) m
  let m := if neg ≠ goShr8 (s.getD 31 0) 7 then FeNeg (p, 0) (p, 0) m else m
  (true, FeMul (p, 3) (p, 0) (p, 1) m)

/-- edwards25519.go:718-762 `(*ExtendedGroupElement).FromBytes`; result and memory. -/
def fromBytes (p : Nat) (s : Bytes) (m : Mem) : Bool × Mem :=
  let (u, m) := m.new
  let (v, m) := m.new
  let (v3, m) := m.new
  let (vxx, m) := m.new
  let (check, m) := m.new
  let m := fbAfter p u v v3 vxx check (fePow22523 (p, 0) (p, 0) (fbBefore p s u v v3 m))
  let (nz, m) := FeIsNonZero (check, 0) m
  if nz = 1 then
    let m := FeAdd (check, 0) (vxx, 0) (u, 0) m
    let (nz, m) := FeIsNonZero (check, 0) m
    if nz = 1 then (false, m)
    else fbFinish p s (FeToBytes (p, 0) (FeMul (p, 0) (p, 0) sqrtM1L m)).2
  else fbFinish p s m

/-- edwards25519.go:764-768 `(*CompletedGroupElement).ToProjective`. -/
def complToProjective (p r : Nat) (m : Mem) : Mem :=
  m |> FeMul (r, 0) (p, 0) (p, 3) |> FeMul (r, 1) (p, 1) (p, 2) |> FeMul (r, 2) (p, 2) (p, 3)

/-- edwards25519.go:770-775 `(*CompletedGroupElement).ToExtended`. -/
def toExtended (p r : Nat) (m : Mem) : Mem :=
  m |> FeMul (r, 0) (p, 0) (p, 3) |> FeMul (r, 1) (p, 1) (p, 2) |> FeMul (r, 2) (p, 2) (p, 3) |> FeMul (r, 3) (p, 0) (p, 1)

/-- edwards25519.go:777-781 `(*PreComputedGroupElement).Zero`. -/
def preZero (p : Nat) (m : Mem) : Mem := m |> FeOne (p, 0) |> FeOne (p, 1) |> FeZero (p, 2)

/-- edwards25519.go:783-797 `geAdd`. -/
def geAdd (r p q : Nat) (m : Mem) : Mem :=
  let (t0, m) := m.new
  m |> FeAdd (r, 0) (p, 1) (p, 0) |> FeSub (r, 1) (p, 1) (p, 0) |> FeMul (r, 2) (r, 0) (q, 0) |> FeMul (r, 1) (r, 1) (q, 1)
    |> FeMul (r, 3) (q, 3) (p, 3) |> FeMul (r, 0) (p, 2) (q, 2) |> FeAdd (t0, 0) (r, 0) (r, 0) |> FeSub (r, 0) (r, 2) (r, 1)
    |> FeAdd (r, 1) (r, 2) (r, 1) |> FeAdd (r, 2) (t0, 0) (r, 3) |> FeSub (r, 3) (t0, 0) (r, 3)

/-- edwards25519.go:799-813 `geSub`. -/
def geSub (r p q : Nat) (m : Mem) : Mem :=
  let (t0, m) := m.new
  m |> FeAdd (r, 0) (p, 1) (p, 0) |> FeSub (r, 1) (p, 1) (p, 0) |> FeMul (r, 2) (r, 0) (q, 1) |> FeMul (r, 1) (r, 1) (q, 0)
    |> FeMul (r, 3) (q, 3) (p, 3) |> FeMul (r, 0) (p, 2) (q, 2) |> FeAdd (t0, 0) (r, 0) (r, 0) |> FeSub (r, 0) (r, 2) (r, 1)
    |> FeAdd (r, 1) (r, 2) (r, 1) |> FeSub (r, 2) (t0, 0) (r, 3) |> FeAdd (r, 3) (t0, 0) (r, 3)

/-- edwards25519.go:815-828 `geMixedAdd`. -/
def geMixedAdd (r p q : Nat) (m : Mem) : Mem :=
  let (t0, m) := m.new
  m |> FeAdd (r, 0) (p, 1) (p, 0) |> FeSub (r, 1) (p, 1) (p, 0) |> FeMul (r, 2) (r, 0) (q, 0) |> FeMul (r, 1) (r, 1) (q, 1)
    |> FeMul (r, 3) (q, 2) (p, 3) |> FeAdd (t0, 0) (p, 2) (p, 2) |> FeSub (r, 0) (r, 2) (r, 1) |> FeAdd (r, 1) (r, 2) (r, 1)
    |> FeAdd (r, 2) (t0, 0) (r, 3) |> FeSub (r, 3) (t0, 0) (r, 3)

/-- edwards25519.go:830-843 `geMixedSub`. -/
def geMixedSub (r p q : Nat) (m : Mem) : Mem :=
  let (t0, m) := m.new
  m |> FeAdd (r, 0) (p, 1) (p, 0) |> FeSub (r, 1) (p, 1) (p, 0) |> FeMul (r, 2) (r, 0) (q, 1) |> FeMul (r, 1) (r, 1) (q, 0)
    |> FeMul (r, 3) (q, 2) (p, 3) |> FeAdd (t0, 0) (p, 2) (p, 2) |> FeSub (r, 0) (r, 2) (r, 1) |> FeAdd (r, 1) (r, 2) (r, 1)
    |> FeSub (r, 2) (t0, 0) (r, 3) |> FeAdd (r, 3) (t0, 0) (r, 3)

/-- edwards25519.go:943-947 `PreComputedGroupElementCMove`. -/
def preCMove (t u : Nat) (b : Int) (m : Mem) : Mem :=
  m |> FeCMove (t, 0) (u, 0) b |> FeCMove (t, 1) (u, 1) b |> FeCMove (t, 2) (u, 2) b

/-- edwards25519.go:949-962 `selectPoint`. -/
def selectPoint (t pos : Nat) (b : Int) (m : Mem) : Mem :=
  let (minusT, m) := m.new
  let bNegative := negative b
  let bAbs := wrap 32 (b - wrap 32 (and32 (wrap 32 (-bNegative)) b * 2))
  let m := preZero t m
  let m := (List.range 8).foldl (fun m i => preCMove t (baseO pos i) (equal bAbs (i + 1)) m) m
  m |> FeCopy (minusT, 0) (t, 1) |> FeCopy (minusT, 1) (t, 0) |> FeNeg (minusT, 2) (t, 2) |> preCMove t minusT bNegative

/-- edwards25519.go:992-996 and 1009-1013, one loop with `i = 2 * pos + odd`. -/
def baseLoop (e : List Int) (odd h t r : Nat) (m : Mem) : Mem :=
  (List.range 32).foldl (fun m pos => m |> selectPoint t pos (lget e (2 * pos + odd)) |> geMixedAdd r h t |> toExtended r h) m

/-- edwards25519.go:970-1014 `GeScalarMultBase`. -/
def GeScalarMultBase (h : Nat) (a : Bytes) (m : Mem) : Mem :=
  let e := recode 0 (nibbles a)
  let m := extZero h m
  let t := m.new.1
  let m := m.new.2
  let r := m.new.1
  let m := m.new.2
  let m := baseLoop e 1 h t r m
  let s := m.new.1
  let m := m.new.2
  m |> extDouble h r |> complToProjective r s |> projDouble s r |> complToProjective r s |> projDouble s r |> complToProjective r s
    |> projDouble s r |> toExtended r h |> baseLoop e 0 h t r

/-- edwards25519.go:893-897: the loop that fills `Ai[1] ... Ai[7]`. -/
def oddLoop (ai t u a2 : Nat) (m : Mem) : Mem :=
  (List.range 7).foldl (fun m i => m |> geAdd t a2 (ai + i) |> toExtended t u |> toCached u (ai + (i + 1))) m

/-- edwards25519.go:907-927: one iteration of the main loop. -/
def doubleStep (r ai t u : Nat) (da db : Int) (m : Mem) : Mem :=
  let m := projDouble r t m
  let m := if da > 0 then m |> toExtended t u |> geAdd t u (ai + (da / 2).toNat)
    else if da < 0 then m |> toExtended t u |> geSub t u (ai + (wrap 8 (-da) / 2).toNat) else m
  let m := if db > 0 then m |> toExtended t u |> geMixedAdd t u (biO (db / 2).toNat)
    else if db < 0 then m |> toExtended t u |> geMixedSub t u (biO (wrap 8 (-db) / 2).toNat) else m
  complToProjective t r m

/-- `var Ai [8]CachedGroupElement` -/
def Mem.new8 (m : Mem) : Nat × Mem :=
  (m.next, { next := m.next + 8, cell := fun o f j => if m.next ≤ o ∧ o < m.next + 8 then 0 else m.cell o f j })

/-- edwards25519.go:879-928 `GeDoubleScalarMultVartime`. -/
def GeDoubleScalarMultVartime (r : Nat) (a : Bytes) (A : Nat) (b : Bytes) (m : Mem) : Mem :=
  let ai := m.new8.1
  let m := m.new8.2
  let t := m.new.1
  let m := m.new.2
  let u := m.new.1
  let m := m.new.2
  let a2 := m.new.1
  let m := m.new.2
  let aSlide := slide a
  let bSlide := slide b
  let m := m |> toCached A ai |> extDouble A t |> toExtended t a2 |> oddLoop ai t u a2 |> projZero r
  let is := (List.range 256).reverse.dropWhile fun i => lget aSlide i = 0 && lget bSlide i = 0
  is.foldl (fun m i => doubleStep r ai t u (lget aSlide i) (lget bSlide i) m) m

end Cardano.Ed.Ptr
