import Verif.Ed25519.Threads
import Verif.Bip32.SignPointers
/-!
# The functions of `edwards25519.go`, access by access

The functions of `Pointers.lean` as programs of single accesses to memory. For each the file says that the program run alone has the effect of the function, and
that it never writes a variable of the package, if its result is not one.
-/
set_option autoImplicit false

namespace Cardano.Ed.Ptr.P
open Prog

/-- `p[i]` -/
def rd (p : Loc) (i : Nat) : Prog Int := .read p.1 p.2 i .ret
/-- `p[i] = v` -/
def wr (p : Loc) (i : Nat) (v : Int) : Prog Unit := .write p.1 p.2 i v (.ret ())
/-- `var x T` -/
def decl : Prog Nat := .new 1 .ret
/-- `var Ai [8]CachedGroupElement` -/
def decl8 : Prog Nat := .new 8 .ret

/-- The ten limbs. -/
def rdList (p : Loc) : List Nat → Prog (List Int)
  | [] => pure []
  | i :: l => do
    let x ← rd p i
    let xs ← rdList p l
    return x :: xs

/-- The ten limbs. -/
def rdFe (p : Loc) : Prog FE := rdList p (List.range 10)

/-- The ten limbs are written, in order. -/
def wrFe (p : Loc) (v : Limbs) : Prog Unit := each (fun i => wr p i (lget v i)) (List.range 10)

theorem run_rd (p : Loc) (i : Nat) (m : Mem) : (rd p i).run m = (m.cell p.1 p.2 i, m) := rfl
theorem run_wr (p : Loc) (i : Nat) (v : Int) (m : Mem) : (wr p i v).run m = ((), m.wr p i v) := rfl

theorem run_decl (m : Mem) : decl.run m = m.new := by
  show (m.next, m.news 1) = m.new
  unfold Mem.news Mem.new
  congr 2
  funext o f j
  by_cases c : o = m.next
  · rw [if_pos c, if_pos (by omega)]
  · rw [if_neg c, if_neg (by omega)]

theorem run_decl8 (m : Mem) : decl8.run m = m.new8 := rfl

theorem run_rdList (p : Loc) (l : List Nat) (m : Mem) : (rdList p l).run m = (l.map (m.cell p.1 p.2), m) := by
  induction l with
  | nil => rfl
  | cons i l ih => simp only [rdList, run_bind, run_rd, ih, run_pure, List.map_cons]

theorem run_rdFe (p : Loc) (m : Mem) : (rdFe p).run m = (m.fe p, m) := run_rdList p _ m

theorem run_wrFe (p : Loc) (v : Limbs) (m : Mem) : (wrFe p v).run m = ((), (List.range 10).foldl (fun m i => m.wr p i (lget v i)) m) :=
  run_each _ _ (fun _ _ => rfl) _ _

theorem safe_rd (p : Loc) (i : Nat) : (rd p i).Safe := fun _ => trivial
theorem safe_wr {p : Loc} (h : firstFree ≤ p.1) (i : Nat) (v : Int) : (wr p i v).Safe := ⟨h, trivial⟩
theorem safe_rdList (p : Loc) (l : List Nat) : (rdList p l).Safe := by
  induction l with
  | nil => trivial
  | cons i l ih => exact safe_bind (safe_rd p i) fun _ => safe_bind ih fun _ => safe_pure _
theorem safe_rdFe (p : Loc) : (rdFe p).Safe := safe_rdList p _
theorem safe_wrFe {p : Loc} (h : firstFree ≤ p.1) (v : Limbs) : (wrFe p v).Safe := safe_each fun _ _ => safe_wr h _ _
theorem safe_decl {β : Type} {g : Nat → Prog β} (h : ∀ o, firstFree ≤ o → (g o).Safe) : (decl >>= g).Safe := h
theorem safe_decl8 {β : Type} {g : Nat → Prog β} (h : ∀ o, firstFree ≤ o → (g o).Safe) : (decl8 >>= g).Safe := h

/-! ## Field elements -/

/-- `dst[0] = ... a[0] ... b[0]; ...; dst[9] = ... a[9] ... b[9]` -/
def limbwise (g : Int → Int → Int) (dst a b : Loc) : Prog Unit :=
  each (fun i => do
    let x ← rd a i
    let y ← rd b i
    wr dst i (g x y)) (List.range 10)

theorem run_limbwise (g : Int → Int → Int) (dst a b : Loc) (m : Mem) : (limbwise g dst a b).run m = ((), Ptr.limbwise g dst a b m) :=
  run_each _ _ (fun i m => by simp only [run_bind, run_rd, run_wr]) _ _

theorem safe_limbwise {g : Int → Int → Int} {dst a b : Loc} (h : firstFree ≤ dst.1) : (limbwise g dst a b).Safe :=
  safe_each fun i _ => safe_bind (safe_rd a i) fun _ => safe_bind (safe_rd b i) fun _ => safe_wr h _ _

/-- edwards25519.go:55-57 `FeCopy`. -/
def FeCopy (dst src : Loc) : Prog Unit := limbwise (fun x _ => x) dst src src

theorem run_FeCopy (dst src : Loc) (m : Mem) : (FeCopy dst src).run m = ((), Ptr.FeCopy dst src m) := run_limbwise _ _ _ _ m

theorem safe_FeCopy {dst src : Loc} (h : firstFree ≤ dst.1) : (FeCopy dst src).Safe := safe_limbwise h

/-- edwards25519.go:20-22 `FeZero`. -/
def FeZero (p : Loc) : Prog Unit := FeCopy p zeroL

theorem run_FeZero (p : Loc) (m : Mem) : (FeZero p).run m = ((), Ptr.FeZero p m) := run_FeCopy _ _ m

theorem safe_FeZero {p : Loc} (h : firstFree ≤ p.1) : (FeZero p).Safe := safe_FeCopy h

/-- edwards25519.go:24-27 `FeOne`. -/
def FeOne (p : Loc) : Prog Unit := do
  FeZero p
  wr p 0 1

theorem run_FeOne (p : Loc) (m : Mem) : (FeOne p).run m = ((), Ptr.FeOne p m) := by
  simp only [FeOne, run_bind, run_FeZero, run_wr]; rfl

theorem safe_FeOne {p : Loc} (h : firstFree ≤ p.1) : (FeOne p).Safe := safe_bind (safe_FeZero h) fun _ => safe_wr h _ _

/-- edwards25519.go:29-40 `FeAdd`. -/
def FeAdd (dst a b : Loc) : Prog Unit := limbwise (fun x y => wrap 32 (x + y)) dst a b

theorem run_FeAdd (dst a b : Loc) (m : Mem) : (FeAdd dst a b).run m = ((), Ptr.FeAdd dst a b m) := run_limbwise _ _ _ _ m

theorem safe_FeAdd {dst a b : Loc} (h : firstFree ≤ dst.1) : (FeAdd dst a b).Safe := safe_limbwise h

/-- edwards25519.go:42-53 `FeSub`. -/
def FeSub (dst a b : Loc) : Prog Unit := limbwise (fun x y => wrap 32 (x - y)) dst a b

theorem run_FeSub (dst a b : Loc) (m : Mem) : (FeSub dst a b).run m = ((), Ptr.FeSub dst a b m) := run_limbwise _ _ _ _ m

theorem safe_FeSub {dst a b : Loc} (h : firstFree ≤ dst.1) : (FeSub dst a b).Safe := safe_limbwise h

/-- edwards25519.go:63-75 `FeCMove`. -/
def FeCMove (f g : Loc) (b : Int) : Prog Unit := limbwise (fun x y => xor32 x (and32 (wrap 32 (-b)) (xor32 x y))) f f g

theorem run_FeCMove (f g : Loc) (b : Int) (m : Mem) : (FeCMove f g b).run m = ((), Ptr.FeCMove f g b m) := run_limbwise _ _ _ _ m

theorem safe_FeCMove {f g : Loc} {b : Int} (h : firstFree ≤ f.1) : (FeCMove f g b).Safe := safe_limbwise h

/-- edwards25519.go:247-258 `FeNeg`. -/
def FeNeg (dst f : Loc) : Prog Unit := limbwise (fun x _ => wrap 32 (-x)) dst f f

theorem run_FeNeg (dst f : Loc) (m : Mem) : (FeNeg dst f).run m = ((), Ptr.FeNeg dst f m) := run_limbwise _ _ _ _ m

theorem safe_FeNeg {dst f : Loc} (h : firstFree ≤ dst.1) : (FeNeg dst f).Safe := safe_limbwise h

/-- edwards25519.go:260-347 `FeCombine`: lines 337-346 write the result. -/
def FeCombine (p : Loc) (l : Limbs) : Prog Unit := wrFe p (Ed.FeCombine l)

theorem run_FeCombine (p : Loc) (l : Limbs) (m : Mem) : (FeCombine p l).run m = ((), Ptr.FeCombine p l m) := run_wrFe _ _ m

theorem safe_FeCombine {p : Loc} {l : Limbs} (h : firstFree ≤ p.1) : (FeCombine p l).Safe := safe_wrFe h _

/-- edwards25519.go:94-107 `FeFromBytes`. -/
def FeFromBytes (dst : Loc) (src : Bytes) : Prog Unit := 
  FeCombine dst ([ load4 src 0
    , load3 src 4 <<< 6
    , load3 src 7 <<< 5
    , load3 src 10 <<< 3
    , load3 src 13 <<< 2
    , load4 src 16
    , load3 src 20 <<< 7
    , load3 src 23 <<< 5
    , load3 src 26 <<< 4
    , (load3 src 29 &&& 8388607) <<< 2 ].map (fun n : Nat => (n : Int)))

theorem run_FeFromBytes (dst : Loc) (src : Bytes) (m : Mem) : (FeFromBytes dst src).run m = ((), Ptr.FeFromBytes dst src m) := run_FeCombine _ _ m

theorem safe_FeFromBytes {dst : Loc} {src : Bytes} (h : firstFree ≤ dst.1) : (FeFromBytes dst src).Safe := safe_FeCombine h

/-- edwards25519.go:132-219 `FeToBytes`, which changes its argument in place. (Simplified: the limbs are read before they are written; the source does both limb by limb, on the same variable.) -/
def FeToBytes (p : Loc) : Prog Bytes := do
  let x ← rdFe p
  wrFe p (Ed.FeToBytes x).2
  return (Ed.FeToBytes x).1

theorem run_FeToBytes (p : Loc) (m : Mem) : (FeToBytes p).run m = Ptr.FeToBytes p m := by
  simp only [FeToBytes, run_bind, run_rdFe, run_wrFe, run_pure]; rfl

theorem safe_FeToBytes {p : Loc} (h : firstFree ≤ p.1) : (FeToBytes p).Safe := safe_bind (safe_rdFe p) fun _ => safe_bind (safe_wrFe h _) fun _ => safe_pure _

/-- edwards25519.go:221-225 `FeIsNegative`. -/
def FeIsNegative (p : Loc) : Prog UInt8 := do
  let s ← FeToBytes p
  return s.headD 0 &&& 1

theorem run_FeIsNegative (p : Loc) (m : Mem) : (FeIsNegative p).run m = Ptr.FeIsNegative p m := by
  simp only [FeIsNegative, run_bind, run_FeToBytes, run_pure]; rfl

theorem safe_FeIsNegative {p : Loc} (h : firstFree ≤ p.1) : (FeIsNegative p).Safe := safe_bind (safe_FeToBytes h) fun _ => safe_pure _

/-- edwards25519.go:227-238 `FeIsNonZero`. -/
def FeIsNonZero (p : Loc) : Prog Int := do
  let s ← FeToBytes p
  let x := s.foldl (fun x b => x ||| b) (0 : UInt8)
  let x := x ||| goShr8 x 4
  let x := x ||| goShr8 x 2
  let x := x ||| goShr8 x 1
  return ((x &&& 1).toNat : Int)

theorem run_FeIsNonZero (p : Loc) (m : Mem) : (FeIsNonZero p).run m = Ptr.FeIsNonZero p m := by
  simp only [FeIsNonZero, run_bind, run_FeToBytes, run_pure]; rfl

theorem safe_FeIsNonZero {p : Loc} (h : firstFree ≤ p.1) : (FeIsNonZero p).Safe := safe_bind (safe_FeToBytes h) fun _ => safe_pure _

/-- edwards25519.go:376-427 `FeMul`: all limbs are read before `FeCombine` is called. -/
def FeMul (p f g : Loc) : Prog Unit := do
  let x ← rdFe f
  let y ← rdFe g
  FeCombine p (mulLimbs.map (E.eval (x ++ y)))

theorem run_FeMul (p f g : Loc) (m : Mem) : (FeMul p f g).run m = ((), Ptr.FeMul p f g m) := by
  simp only [FeMul, run_bind, run_rdFe, run_FeCombine]; rfl

theorem safe_FeMul {p f g : Loc} (h : firstFree ≤ p.1) : (FeMul p f g).Safe := safe_bind (safe_rdFe f) fun _ => safe_bind (safe_rdFe g) fun _ => safe_FeCombine h

/-- edwards25519.go:475-478 `FeSquare`. -/
def FeSquare (p f : Loc) : Prog Unit := do
  let x ← rdFe f
  FeCombine p (squareLimbs.map (E.eval x))

theorem run_FeSquare (p f : Loc) (m : Mem) : (FeSquare p f).run m = ((), Ptr.FeSquare p f m) := by
  simp only [FeSquare, run_bind, run_rdFe, run_FeCombine]; rfl

theorem safe_FeSquare {p f : Loc} (h : firstFree ≤ p.1) : (FeSquare p f).Safe := safe_bind (safe_rdFe f) fun _ => safe_FeCombine h

/-- edwards25519.go:490-505 `FeSquare2`. -/
def FeSquare2 (p f : Loc) : Prog Unit := do
  let x ← rdFe f
  FeCombine p ((squareLimbs.map (E.eval x)).map (fun h => wrap 64 (h + h)))

theorem run_FeSquare2 (p f : Loc) (m : Mem) : (FeSquare2 p f).run m = ((), Ptr.FeSquare2 p f m) := by
  simp only [FeSquare2, run_bind, run_rdFe, run_FeCombine]; rfl

theorem safe_FeSquare2 {p f : Loc} (h : firstFree ≤ p.1) : (FeSquare2 p f).Safe := safe_bind (safe_rdFe f) fun _ => safe_FeCombine h

/-- The same program several times. -/
def times (p : Prog Unit) : Nat → Prog Unit
  | 0 => pure ()
  | n + 1 => do
    times p n
    p

theorem run_times (p : Prog Unit) (g : Mem → Mem) (h : ∀ m, p.run m = ((), g m)) (n : Nat) (m : Mem) : (times p n).run m = ((), Nat.repeat g n m) := by
  induction n with
  | zero => rfl
  | succ n ih => rw [times, run_bind, ih, h]; rfl

theorem safe_times {p : Prog Unit} (h : p.Safe) (n : Nat) : (times p n).Safe := by
  induction n with
  | zero => trivial
  | succ n ih => exact safe_bind ih fun _ => h

/-- `for i = 1; i < n; i++ { FeSquare(&t, &t) }` -/
def sqLoop (n : Nat) (t : Loc) : Prog Unit := times (FeSquare t t) (n - 1)

theorem run_sqLoop (n : Nat) (t : Loc) (m : Mem) : (sqLoop n t).run m = ((), Ptr.sqLoop n t m) := run_times _ _ (run_FeSquare t t) _ m

theorem safe_sqLoop {n : Nat} {t : Loc} (h : firstFree ≤ t.1) : (sqLoop n t).Safe := safe_times (safe_FeSquare h) _

attribute [local irreducible] Prog.Safe Prog.bind Prog.run

/-- edwards25519.go:507-560 `FeInvert`. -/
def FeInvert (out z : Loc) : Prog Unit := do
  let t0 ← decl
  let t1 ← decl
  let t2 ← decl
  let t3 ← decl
  FeSquare (t0, 0) z
  FeSquare (t1, 0) (t0, 0)
  sqLoop 2 (t1, 0)
  FeMul (t1, 0) z (t1, 0)
  FeMul (t0, 0) (t0, 0) (t1, 0)
  FeSquare (t2, 0) (t0, 0)
  FeMul (t1, 0) (t1, 0) (t2, 0)
  FeSquare (t2, 0) (t1, 0)
  sqLoop 5 (t2, 0)
  FeMul (t1, 0) (t2, 0) (t1, 0)
  FeSquare (t2, 0) (t1, 0)
  sqLoop 10 (t2, 0)
  FeMul (t2, 0) (t2, 0) (t1, 0)
  FeSquare (t3, 0) (t2, 0)
  sqLoop 20 (t3, 0)
  FeMul (t2, 0) (t3, 0) (t2, 0)
  FeSquare (t2, 0) (t2, 0)
  sqLoop 10 (t2, 0)
  FeMul (t1, 0) (t2, 0) (t1, 0)
  FeSquare (t2, 0) (t1, 0)
  sqLoop 50 (t2, 0)
  FeMul (t2, 0) (t2, 0) (t1, 0)
  FeSquare (t3, 0) (t2, 0)
  sqLoop 100 (t3, 0)
  FeMul (t2, 0) (t3, 0) (t2, 0)
  FeSquare (t2, 0) (t2, 0)
  sqLoop 50 (t2, 0)
  FeMul (t1, 0) (t2, 0) (t1, 0)
  FeSquare (t1, 0) (t1, 0)
  sqLoop 5 (t1, 0)
  FeMul out (t1, 0) (t0, 0)

theorem run_FeInvert (out z : Loc) (m : Mem) : (FeInvert out z).run m = ((), Ptr.FeInvert out z m) := by
  simp only [FeInvert, run_bind, run_decl, run_FeMul, run_FeSquare, run_sqLoop]; rfl

theorem safe_FeInvert {out z : Loc} (hout : firstFree ≤ out.1) : (FeInvert out z).Safe := by
  unfold FeInvert
  exact
    safe_decl fun t0 ht0 => safe_decl fun t1 ht1 => safe_decl fun t2 ht2 => safe_decl fun t3 ht3 => safe_bind (safe_FeSquare ht0) fun _ =>
      safe_bind (safe_FeSquare ht1) fun _ => safe_bind (safe_sqLoop ht1) fun _ => safe_bind (safe_FeMul ht1) fun _ =>
      safe_bind (safe_FeMul ht0) fun _ => safe_bind (safe_FeSquare ht2) fun _ => safe_bind (safe_FeMul ht1) fun _ =>
      safe_bind (safe_FeSquare ht2) fun _ => safe_bind (safe_sqLoop ht2) fun _ => safe_bind (safe_FeMul ht1) fun _ =>
      safe_bind (safe_FeSquare ht2) fun _ => safe_bind (safe_sqLoop ht2) fun _ => safe_bind (safe_FeMul ht2) fun _ =>
      safe_bind (safe_FeSquare ht3) fun _ => safe_bind (safe_sqLoop ht3) fun _ => safe_bind (safe_FeMul ht2) fun _ =>
      safe_bind (safe_FeSquare ht2) fun _ => safe_bind (safe_sqLoop ht2) fun _ => safe_bind (safe_FeMul ht1) fun _ =>
      safe_bind (safe_FeSquare ht2) fun _ => safe_bind (safe_sqLoop ht2) fun _ => safe_bind (safe_FeMul ht2) fun _ =>
      safe_bind (safe_FeSquare ht3) fun _ => safe_bind (safe_sqLoop ht3) fun _ => safe_bind (safe_FeMul ht2) fun _ =>
      safe_bind (safe_FeSquare ht2) fun _ => safe_bind (safe_sqLoop ht2) fun _ => safe_bind (safe_FeMul ht1) fun _ =>
      safe_bind (safe_FeSquare ht1) fun _ => safe_bind (safe_sqLoop ht1) fun _ => (safe_FeMul hout)

/-- edwards25519.go:562-621 `fePow22523`. -/
def fePow22523 (out z : Loc) : Prog Unit := do
  let t0 ← decl
  let t1 ← decl
  let t2 ← decl
  FeSquare (t0, 0) z
  sqLoop 1 (t0, 0)
  FeSquare (t1, 0) (t0, 0)
  sqLoop 2 (t1, 0)
  FeMul (t1, 0) z (t1, 0)
  FeMul (t0, 0) (t0, 0) (t1, 0)
  FeSquare (t0, 0) (t0, 0)
  sqLoop 1 (t0, 0)
  FeMul (t0, 0) (t1, 0) (t0, 0)
  FeSquare (t1, 0) (t0, 0)
  sqLoop 5 (t1, 0)
  FeMul (t0, 0) (t1, 0) (t0, 0)
  FeSquare (t1, 0) (t0, 0)
  sqLoop 10 (t1, 0)
  FeMul (t1, 0) (t1, 0) (t0, 0)
  FeSquare (t2, 0) (t1, 0)
  sqLoop 20 (t2, 0)
  FeMul (t1, 0) (t2, 0) (t1, 0)
  FeSquare (t1, 0) (t1, 0)
  sqLoop 10 (t1, 0)
  FeMul (t0, 0) (t1, 0) (t0, 0)
  FeSquare (t1, 0) (t0, 0)
  sqLoop 50 (t1, 0)
  FeMul (t1, 0) (t1, 0) (t0, 0)
  FeSquare (t2, 0) (t1, 0)
  sqLoop 100 (t2, 0)
  FeMul (t1, 0) (t2, 0) (t1, 0)
  FeSquare (t1, 0) (t1, 0)
  sqLoop 50 (t1, 0)
  FeMul (t0, 0) (t1, 0) (t0, 0)
  FeSquare (t0, 0) (t0, 0)
  sqLoop 2 (t0, 0)
  FeMul out (t0, 0) z

theorem run_fePow22523 (out z : Loc) (m : Mem) : (fePow22523 out z).run m = ((), Ptr.fePow22523 out z m) := by
  simp only [fePow22523, run_bind, run_decl, run_FeMul, run_FeSquare, run_sqLoop]; rfl

theorem safe_fePow22523 {out z : Loc} (hout : firstFree ≤ out.1) : (fePow22523 out z).Safe := by
  unfold fePow22523
  exact
    safe_decl fun t0 ht0 => safe_decl fun t1 ht1 => safe_decl fun t2 ht2 => safe_bind (safe_FeSquare ht0) fun _ =>
      safe_bind (safe_sqLoop ht0) fun _ => safe_bind (safe_FeSquare ht1) fun _ => safe_bind (safe_sqLoop ht1) fun _ =>
      safe_bind (safe_FeMul ht1) fun _ => safe_bind (safe_FeMul ht0) fun _ => safe_bind (safe_FeSquare ht0) fun _ =>
      safe_bind (safe_sqLoop ht0) fun _ => safe_bind (safe_FeMul ht0) fun _ => safe_bind (safe_FeSquare ht1) fun _ =>
      safe_bind (safe_sqLoop ht1) fun _ => safe_bind (safe_FeMul ht0) fun _ => safe_bind (safe_FeSquare ht1) fun _ =>
      safe_bind (safe_sqLoop ht1) fun _ => safe_bind (safe_FeMul ht1) fun _ => safe_bind (safe_FeSquare ht2) fun _ =>
      safe_bind (safe_sqLoop ht2) fun _ => safe_bind (safe_FeMul ht1) fun _ => safe_bind (safe_FeSquare ht1) fun _ =>
      safe_bind (safe_sqLoop ht1) fun _ => safe_bind (safe_FeMul ht0) fun _ => safe_bind (safe_FeSquare ht1) fun _ =>
      safe_bind (safe_sqLoop ht1) fun _ => safe_bind (safe_FeMul ht1) fun _ => safe_bind (safe_FeSquare ht2) fun _ =>
      safe_bind (safe_sqLoop ht2) fun _ => safe_bind (safe_FeMul ht1) fun _ => safe_bind (safe_FeSquare ht1) fun _ =>
      safe_bind (safe_sqLoop ht1) fun _ => safe_bind (safe_FeMul ht0) fun _ => safe_bind (safe_FeSquare ht0) fun _ =>
      safe_bind (safe_sqLoop ht0) fun _ => (safe_FeMul hout)

/-! ## Group elements -/

/-- edwards25519.go:652-656 `(*ProjectiveGroupElement).Zero`. -/
def projZero (p : Nat) : Prog Unit := do
  FeZero (p, 0)
  FeOne (p, 1)
  FeOne (p, 2)

theorem run_projZero (p : Nat) (m : Mem) : (projZero p).run m = ((), Ptr.projZero p m) := by
  simp only [projZero, run_bind, run_FeOne, run_FeZero]; rfl

theorem safe_projZero {p : Nat} (hp : firstFree ≤ p) : (projZero p).Safe := by
  unfold projZero
  exact
    safe_bind (safe_FeZero hp) fun _ => safe_bind (safe_FeOne hp) fun _ => (safe_FeOne hp)

/-- edwards25519.go:658-670 `(*ProjectiveGroupElement).Double`. -/
def projDouble (p r : Nat) : Prog Unit := do
  let t0 ← decl
  FeSquare (r, 0) (p, 0)
  FeSquare (r, 2) (p, 1)
  FeSquare2 (r, 3) (p, 2)
  FeAdd (r, 1) (p, 0) (p, 1)
  FeSquare (t0, 0) (r, 1)
  FeAdd (r, 1) (r, 2) (r, 0)
  FeSub (r, 2) (r, 2) (r, 0)
  FeSub (r, 0) (t0, 0) (r, 1)
  FeSub (r, 3) (r, 3) (r, 2)

theorem run_projDouble (p r : Nat) (m : Mem) : (projDouble p r).run m = ((), Ptr.projDouble p r m) := by
  simp only [projDouble, run_bind, run_decl, run_FeAdd, run_FeSquare, run_FeSquare2, run_FeSub]; rfl

theorem safe_projDouble {p r : Nat} (hr : firstFree ≤ r) : (projDouble p r).Safe := by
  unfold projDouble
  exact
    safe_decl fun t0 ht0 => safe_bind (safe_FeSquare hr) fun _ => safe_bind (safe_FeSquare hr) fun _ => safe_bind (safe_FeSquare2 hr) fun _ =>
      safe_bind (safe_FeAdd hr) fun _ => safe_bind (safe_FeSquare ht0) fun _ => safe_bind (safe_FeAdd hr) fun _ => safe_bind (safe_FeSub hr) fun _ =>
      safe_bind (safe_FeSub hr) fun _ => (safe_FeSub hr)

/-- edwards25519.go:682-687 `(*ExtendedGroupElement).Zero`. -/
def extZero (p : Nat) : Prog Unit := do
  FeZero (p, 0)
  FeOne (p, 1)
  FeOne (p, 2)
  FeZero (p, 3)

theorem run_extZero (p : Nat) (m : Mem) : (extZero p).run m = ((), Ptr.extZero p m) := by
  simp only [extZero, run_bind, run_FeOne, run_FeZero]; rfl

theorem safe_extZero {p : Nat} (hp : firstFree ≤ p) : (extZero p).Safe := by
  unfold extZero
  exact
    safe_bind (safe_FeZero hp) fun _ => safe_bind (safe_FeOne hp) fun _ => safe_bind (safe_FeOne hp) fun _ => (safe_FeZero hp)

/-- edwards25519.go:702-706 `(*ExtendedGroupElement).ToProjective`. -/
def extToProjective (p r : Nat) : Prog Unit := do
  FeCopy (r, 0) (p, 0)
  FeCopy (r, 1) (p, 1)
  FeCopy (r, 2) (p, 2)

theorem run_extToProjective (p r : Nat) (m : Mem) : (extToProjective p r).run m = ((), Ptr.extToProjective p r m) := by
  simp only [extToProjective, run_bind, run_FeCopy]; rfl

theorem safe_extToProjective {p r : Nat} (hr : firstFree ≤ r) : (extToProjective p r).Safe := by
  unfold extToProjective
  exact
    safe_bind (safe_FeCopy hr) fun _ => safe_bind (safe_FeCopy hr) fun _ => (safe_FeCopy hr)

/-- edwards25519.go:689-693 `(*ExtendedGroupElement).Double`. -/
def extDouble (p r : Nat) : Prog Unit := do
  let q ← decl
  extToProjective p q
  projDouble q r

theorem run_extDouble (p r : Nat) (m : Mem) : (extDouble p r).run m = ((), Ptr.extDouble p r m) := by
  simp only [extDouble, run_bind, run_decl, run_extToProjective, run_projDouble]; rfl

theorem safe_extDouble {p r : Nat} (hr : firstFree ≤ r) : (extDouble p r).Safe := by
  unfold extDouble
  exact
    safe_decl fun q hq => safe_bind (safe_extToProjective hq) fun _ => (safe_projDouble hr)

/-- edwards25519.go:695-700 `(*ExtendedGroupElement).ToCached`. -/
def toCached (p r : Nat) : Prog Unit := do
  FeAdd (r, 0) (p, 1) (p, 0)
  FeSub (r, 1) (p, 1) (p, 0)
  FeCopy (r, 2) (p, 2)
  FeMul (r, 3) (p, 3) d2L

theorem run_toCached (p r : Nat) (m : Mem) : (toCached p r).run m = ((), Ptr.toCached p r m) := by
  simp only [toCached, run_bind, run_FeAdd, run_FeCopy, run_FeMul, run_FeSub]; rfl

theorem safe_toCached {p r : Nat} (hr : firstFree ≤ r) : (toCached p r).Safe := by
  unfold toCached
  exact
    safe_bind (safe_FeAdd hr) fun _ => safe_bind (safe_FeSub hr) fun _ => safe_bind (safe_FeCopy hr) fun _ => (safe_FeMul hr)

/-- edwards25519.go:764-768 `(*CompletedGroupElement).ToProjective`. -/
def complToProjective (p r : Nat) : Prog Unit := do
  FeMul (r, 0) (p, 0) (p, 3)
  FeMul (r, 1) (p, 1) (p, 2)
  FeMul (r, 2) (p, 2) (p, 3)

theorem run_complToProjective (p r : Nat) (m : Mem) : (complToProjective p r).run m = ((), Ptr.complToProjective p r m) := by
  simp only [complToProjective, run_bind, run_FeMul]; rfl

theorem safe_complToProjective {p r : Nat} (hr : firstFree ≤ r) : (complToProjective p r).Safe := by
  unfold complToProjective
  exact
    safe_bind (safe_FeMul hr) fun _ => safe_bind (safe_FeMul hr) fun _ => (safe_FeMul hr)

/-- edwards25519.go:770-775 `(*CompletedGroupElement).ToExtended`. -/
def toExtended (p r : Nat) : Prog Unit := do
  FeMul (r, 0) (p, 0) (p, 3)
  FeMul (r, 1) (p, 1) (p, 2)
  FeMul (r, 2) (p, 2) (p, 3)
  FeMul (r, 3) (p, 0) (p, 1)

theorem run_toExtended (p r : Nat) (m : Mem) : (toExtended p r).run m = ((), Ptr.toExtended p r m) := by
  simp only [toExtended, run_bind, run_FeMul]; rfl

theorem safe_toExtended {p r : Nat} (hr : firstFree ≤ r) : (toExtended p r).Safe := by
  unfold toExtended
  exact
    safe_bind (safe_FeMul hr) fun _ => safe_bind (safe_FeMul hr) fun _ => safe_bind (safe_FeMul hr) fun _ => (safe_FeMul hr)

/-- edwards25519.go:777-781 `(*PreComputedGroupElement).Zero`. -/
def preZero (p : Nat) : Prog Unit := do
  FeOne (p, 0)
  FeOne (p, 1)
  FeZero (p, 2)

theorem run_preZero (p : Nat) (m : Mem) : (preZero p).run m = ((), Ptr.preZero p m) := by
  simp only [preZero, run_bind, run_FeOne, run_FeZero]; rfl

theorem safe_preZero {p : Nat} (hp : firstFree ≤ p) : (preZero p).Safe := by
  unfold preZero
  exact
    safe_bind (safe_FeOne hp) fun _ => safe_bind (safe_FeOne hp) fun _ => (safe_FeZero hp)

/-- edwards25519.go:783-797 `geAdd`. -/
def geAdd (r p q : Nat) : Prog Unit := do
  let t0 ← decl
  FeAdd (r, 0) (p, 1) (p, 0)
  FeSub (r, 1) (p, 1) (p, 0)
  FeMul (r, 2) (r, 0) (q, 0)
  FeMul (r, 1) (r, 1) (q, 1)
  FeMul (r, 3) (q, 3) (p, 3)
  FeMul (r, 0) (p, 2) (q, 2)
  FeAdd (t0, 0) (r, 0) (r, 0)
  FeSub (r, 0) (r, 2) (r, 1)
  FeAdd (r, 1) (r, 2) (r, 1)
  FeAdd (r, 2) (t0, 0) (r, 3)
  FeSub (r, 3) (t0, 0) (r, 3)

theorem run_geAdd (r p q : Nat) (m : Mem) : (geAdd r p q).run m = ((), Ptr.geAdd r p q m) := by
  simp only [geAdd, run_bind, run_decl, run_FeAdd, run_FeMul, run_FeSub]; rfl

theorem safe_geAdd {r p q : Nat} (hr : firstFree ≤ r) : (geAdd r p q).Safe := by
  unfold geAdd
  exact
    safe_decl fun t0 ht0 => safe_bind (safe_FeAdd hr) fun _ => safe_bind (safe_FeSub hr) fun _ => safe_bind (safe_FeMul hr) fun _ =>
      safe_bind (safe_FeMul hr) fun _ => safe_bind (safe_FeMul hr) fun _ => safe_bind (safe_FeMul hr) fun _ => safe_bind (safe_FeAdd ht0) fun _ =>
      safe_bind (safe_FeSub hr) fun _ => safe_bind (safe_FeAdd hr) fun _ => safe_bind (safe_FeAdd hr) fun _ => (safe_FeSub hr)

/-- edwards25519.go:799-813 `geSub`. -/
def geSub (r p q : Nat) : Prog Unit := do
  let t0 ← decl
  FeAdd (r, 0) (p, 1) (p, 0)
  FeSub (r, 1) (p, 1) (p, 0)
  FeMul (r, 2) (r, 0) (q, 1)
  FeMul (r, 1) (r, 1) (q, 0)
  FeMul (r, 3) (q, 3) (p, 3)
  FeMul (r, 0) (p, 2) (q, 2)
  FeAdd (t0, 0) (r, 0) (r, 0)
  FeSub (r, 0) (r, 2) (r, 1)
  FeAdd (r, 1) (r, 2) (r, 1)
  FeSub (r, 2) (t0, 0) (r, 3)
  FeAdd (r, 3) (t0, 0) (r, 3)

theorem run_geSub (r p q : Nat) (m : Mem) : (geSub r p q).run m = ((), Ptr.geSub r p q m) := by
  simp only [geSub, run_bind, run_decl, run_FeAdd, run_FeMul, run_FeSub]; rfl

theorem safe_geSub {r p q : Nat} (hr : firstFree ≤ r) : (geSub r p q).Safe := by
  unfold geSub
  exact
    safe_decl fun t0 ht0 => safe_bind (safe_FeAdd hr) fun _ => safe_bind (safe_FeSub hr) fun _ => safe_bind (safe_FeMul hr) fun _ =>
      safe_bind (safe_FeMul hr) fun _ => safe_bind (safe_FeMul hr) fun _ => safe_bind (safe_FeMul hr) fun _ => safe_bind (safe_FeAdd ht0) fun _ =>
      safe_bind (safe_FeSub hr) fun _ => safe_bind (safe_FeAdd hr) fun _ => safe_bind (safe_FeSub hr) fun _ => (safe_FeAdd hr)

/-- edwards25519.go:815-828 `geMixedAdd`. -/
def geMixedAdd (r p q : Nat) : Prog Unit := do
  let t0 ← decl
  FeAdd (r, 0) (p, 1) (p, 0)
  FeSub (r, 1) (p, 1) (p, 0)
  FeMul (r, 2) (r, 0) (q, 0)
  FeMul (r, 1) (r, 1) (q, 1)
  FeMul (r, 3) (q, 2) (p, 3)
  FeAdd (t0, 0) (p, 2) (p, 2)
  FeSub (r, 0) (r, 2) (r, 1)
  FeAdd (r, 1) (r, 2) (r, 1)
  FeAdd (r, 2) (t0, 0) (r, 3)
  FeSub (r, 3) (t0, 0) (r, 3)

theorem run_geMixedAdd (r p q : Nat) (m : Mem) : (geMixedAdd r p q).run m = ((), Ptr.geMixedAdd r p q m) := by
  simp only [geMixedAdd, run_bind, run_decl, run_FeAdd, run_FeMul, run_FeSub]; rfl

theorem safe_geMixedAdd {r p q : Nat} (hr : firstFree ≤ r) : (geMixedAdd r p q).Safe := by
  unfold geMixedAdd
  exact
    safe_decl fun t0 ht0 => safe_bind (safe_FeAdd hr) fun _ => safe_bind (safe_FeSub hr) fun _ => safe_bind (safe_FeMul hr) fun _ =>
      safe_bind (safe_FeMul hr) fun _ => safe_bind (safe_FeMul hr) fun _ => safe_bind (safe_FeAdd ht0) fun _ => safe_bind (safe_FeSub hr) fun _ =>
      safe_bind (safe_FeAdd hr) fun _ => safe_bind (safe_FeAdd hr) fun _ => (safe_FeSub hr)

/-- edwards25519.go:830-843 `geMixedSub`. -/
def geMixedSub (r p q : Nat) : Prog Unit := do
  let t0 ← decl
  FeAdd (r, 0) (p, 1) (p, 0)
  FeSub (r, 1) (p, 1) (p, 0)
  FeMul (r, 2) (r, 0) (q, 1)
  FeMul (r, 1) (r, 1) (q, 0)
  FeMul (r, 3) (q, 2) (p, 3)
  FeAdd (t0, 0) (p, 2) (p, 2)
  FeSub (r, 0) (r, 2) (r, 1)
  FeAdd (r, 1) (r, 2) (r, 1)
  FeSub (r, 2) (t0, 0) (r, 3)
  FeAdd (r, 3) (t0, 0) (r, 3)

theorem run_geMixedSub (r p q : Nat) (m : Mem) : (geMixedSub r p q).run m = ((), Ptr.geMixedSub r p q m) := by
  simp only [geMixedSub, run_bind, run_decl, run_FeAdd, run_FeMul, run_FeSub]; rfl

theorem safe_geMixedSub {r p q : Nat} (hr : firstFree ≤ r) : (geMixedSub r p q).Safe := by
  unfold geMixedSub
  exact
    safe_decl fun t0 ht0 => safe_bind (safe_FeAdd hr) fun _ => safe_bind (safe_FeSub hr) fun _ => safe_bind (safe_FeMul hr) fun _ =>
      safe_bind (safe_FeMul hr) fun _ => safe_bind (safe_FeMul hr) fun _ => safe_bind (safe_FeAdd ht0) fun _ => safe_bind (safe_FeSub hr) fun _ =>
      safe_bind (safe_FeAdd hr) fun _ => safe_bind (safe_FeSub hr) fun _ => (safe_FeAdd hr)

/-- edwards25519.go:943-947 `PreComputedGroupElementCMove`. -/
def preCMove (t u : Nat) (b : Int) : Prog Unit := do
  FeCMove (t, 0) (u, 0) b
  FeCMove (t, 1) (u, 1) b
  FeCMove (t, 2) (u, 2) b

theorem run_preCMove (t u : Nat) (b : Int) (m : Mem) : (preCMove t u b).run m = ((), Ptr.preCMove t u b m) := by
  simp only [preCMove, run_bind, run_FeCMove]; rfl

theorem safe_preCMove {t u : Nat} {b : Int} (ht : firstFree ≤ t) : (preCMove t u b).Safe := by
  unfold preCMove
  exact
    safe_bind (safe_FeCMove ht) fun _ => safe_bind (safe_FeCMove ht) fun _ => (safe_FeCMove ht)

/-- edwards25519.go:721-732, of `FromBytes`: before the exponentiation. -/
def fbBefore (p : Nat) (s : Bytes) (u v v3 : Nat) : Prog Unit := do
  FeFromBytes (p, 1) s
  FeOne (p, 2)
  FeSquare (u, 0) (p, 1)
  FeMul (v, 0) (u, 0) dL
  FeSub (u, 0) (u, 0) (p, 2)
  FeAdd (v, 0) (v, 0) (p, 2)
  FeSquare (v3, 0) (v, 0)
  FeMul (v3, 0) (v3, 0) (v, 0)
  FeSquare (p, 0) (v3, 0)
  FeMul (p, 0) (p, 0) (v, 0)
  FeMul (p, 0) (p, 0) (u, 0)

theorem run_fbBefore (p : Nat) (s : Bytes) (u v v3 : Nat) (m : Mem) : (fbBefore p s u v v3).run m = ((), Ptr.fbBefore p s u v v3 m) := by
  simp only [fbBefore, run_bind, run_FeAdd, run_FeFromBytes, run_FeMul, run_FeOne, run_FeSquare, run_FeSub]; rfl

theorem safe_fbBefore {p : Nat} {s : Bytes} {u v v3 : Nat} (hp : firstFree ≤ p) (hu : firstFree ≤ u) (hv : firstFree ≤ v) (hv3 : firstFree ≤ v3) : (fbBefore p s u v v3).Safe := by
  unfold fbBefore
  exact
    safe_bind (safe_FeFromBytes hp) fun _ => safe_bind (safe_FeOne hp) fun _ => safe_bind (safe_FeSquare hu) fun _ =>
      safe_bind (safe_FeMul hv) fun _ => safe_bind (safe_FeSub hu) fun _ => safe_bind (safe_FeAdd hv) fun _ => safe_bind (safe_FeSquare hv3) fun _ =>
      safe_bind (safe_FeMul hv3) fun _ => safe_bind (safe_FeSquare hp) fun _ => safe_bind (safe_FeMul hp) fun _ => (safe_FeMul hp)

/-- edwards25519.go:735-742, of `FromBytes`: after it. -/
def fbAfter (p u v v3 vxx check : Nat) : Prog Unit := do
  FeMul (p, 0) (p, 0) (v3, 0)
  FeMul (p, 0) (p, 0) (u, 0)
  FeSquare (vxx, 0) (p, 0)
  FeMul (vxx, 0) (vxx, 0) (v, 0)
  FeSub (check, 0) (vxx, 0) (u, 0)

theorem run_fbAfter (p u v v3 vxx check : Nat) (m : Mem) : (fbAfter p u v v3 vxx check).run m = ((), Ptr.fbAfter p u v v3 vxx check m) := by
  simp only [fbAfter, run_bind, run_FeMul, run_FeSquare, run_FeSub]; rfl

theorem safe_fbAfter {p u v v3 vxx check : Nat} (hp : firstFree ≤ p) (hvxx : firstFree ≤ vxx) (hcheck : firstFree ≤ check) : (fbAfter p u v v3 vxx check).Safe := by
  unfold fbAfter
  exact
    safe_bind (safe_FeMul hp) fun _ => safe_bind (safe_FeMul hp) fun _ => safe_bind (safe_FeSquare hvxx) fun _ =>
      safe_bind (safe_FeMul hvxx) fun _ => (safe_FeSub hcheck)

attribute [local irreducible] Ptr.FeToBytes Ptr.FeIsNegative Ptr.FeIsNonZero Ptr.FeInvert Ptr.FeMul Ptr.FeNeg Ptr.FeAdd Ptr.fePow22523 Ptr.fbBefore Ptr.fbAfter Mem.new Mem.new8

/-- edwards25519.go:672-680 and 708-716 `ToBytes`. -/
def toBytes (p : Nat) : Prog Bytes := do
  let recip ← decl
  let x ← decl
  let y ← decl
  FeInvert (recip, 0) (p, 2)
  FeMul (x, 0) (p, 0) (recip, 0)
  FeMul (y, 0) (p, 1) (recip, 0)
  let s ← FeToBytes (y, 0)
  let b ← FeIsNegative (x, 0)
  return flipTop s b

theorem run_toBytes (p : Nat) (m : Mem) : (toBytes p).run m = Ptr.toBytes p m := by
  simp only [toBytes, run_bind, run_decl, run_FeInvert, run_FeMul, run_FeToBytes, run_FeIsNegative, run_pure]; rfl

theorem safe_toBytes {p : Nat} : (toBytes p).Safe := by
  unfold toBytes
  exact
    safe_decl fun recip hr => safe_decl fun x hx => safe_decl fun y hy => safe_bind (safe_FeInvert hr) fun _ => safe_bind (safe_FeMul hx) fun _ =>
      safe_bind (safe_FeMul hy) fun _ => safe_bind (safe_FeToBytes hy) fun _ => safe_bind (safe_FeIsNegative hx) fun _ => safe_pure _

/-- `if c { p }` -/
def only (c : Prop) [Decidable c] (p : Prog Unit) : Prog Unit := if c then p else pure ()

theorem run_only (c : Prop) [Decidable c] (p : Prog Unit) (g : Mem → Mem) (h : ∀ m, p.run m = ((), g m)) (m : Mem) :
    (only c p).run m = ((), if c then g m else m) := by
  unfold only
  by_cases hc : c
  · rw [if_pos hc, if_pos hc, h]
  · rw [if_neg hc, if_neg hc, run_pure]

theorem safe_ite {α : Type} (c : Prop) [Decidable c] {p q : Prog α} (hp : p.Safe) (hq : q.Safe) : (if c then p else q).Safe := by
  by_cases hc : c
  · rw [if_pos hc]; exact hp
  · rw [if_neg hc]; exact hq

theorem safe_only {c : Prop} [Decidable c] {p : Prog Unit} (hp : p.Safe) : (only c p).Safe := safe_ite _ hp (safe_pure _)

/-- edwards25519.go:756-761, the end of `FromBytes`. -/
def fbFinish (p : Nat) (s : Bytes) : Prog Bool := do
  let neg ← FeIsNegative (p, 0)
  only (neg ≠ goShr8 (s.getD 31 0) 7) (FeNeg (p, 0) (p, 0))
  FeMul (p, 3) (p, 0) (p, 1)
  return true

theorem run_fbFinish (p : Nat) (s : Bytes) (m : Mem) : (fbFinish p s).run m = Ptr.fbFinish p s m := by
  simp only [fbFinish, run_bind, run_FeIsNegative, run_only _ _ _ (run_FeNeg _ _), run_FeMul, run_pure]; rfl

theorem safe_fbFinish {p : Nat} {s : Bytes} (h : firstFree ≤ p) : (fbFinish p s).Safe := by
  unfold fbFinish
  exact safe_bind (safe_FeIsNegative h) fun _ => safe_bind (safe_only (safe_FeNeg h)) fun _ => safe_bind (safe_FeMul h) fun _ => safe_pure _

/-- edwards25519.go:718-762 `(*ExtendedGroupElement).FromBytes`. -/
def fromBytes (p : Nat) (s : Bytes) : Prog Bool := do
  let u ← decl
  let v ← decl
  let v3 ← decl
  let vxx ← decl
  let check ← decl
  fbBefore p s u v v3
  fePow22523 (p, 0) (p, 0)
  fbAfter p u v v3 vxx check
  let nz ← FeIsNonZero (check, 0)
  if nz = 1 then do
    FeAdd (check, 0) (vxx, 0) (u, 0)
    let nz ← FeIsNonZero (check, 0)
    if nz = 1 then return false
    else do
      FeMul (p, 0) (p, 0) sqrtM1L
      let _ ← FeToBytes (p, 0)
      fbFinish p s
  else fbFinish p s

theorem run_ite {α : Type} (c : Prop) [Decidable c] (p q : Prog α) (m : Mem) : (if c then p else q).run m = if c then p.run m else q.run m := by
  by_cases hc : c
  · rw [if_pos hc, if_pos hc]
  · rw [if_neg hc, if_neg hc]

theorem run_fromBytes (p : Nat) (s : Bytes) (m : Mem) : (fromBytes p s).run m = Ptr.fromBytes p s m := by
  simp only [fromBytes, run_bind, run_decl, run_fbBefore, run_fePow22523, run_fbAfter, run_FeIsNonZero, run_ite, run_FeAdd, run_FeMul, run_FeToBytes, run_fbFinish, run_pure]
  rfl

theorem safe_fromBytes {p : Nat} {s : Bytes} (h : firstFree ≤ p) : (fromBytes p s).Safe := by
  unfold fromBytes
  exact
    safe_decl fun u hu => safe_decl fun v hv => safe_decl fun v3 hv3 => safe_decl fun vxx hvxx => safe_decl fun check hc =>
      safe_bind (safe_fbBefore h hu hv hv3) fun _ => safe_bind (safe_fePow22523 h) fun _ => safe_bind (safe_fbAfter h hvxx hc) fun _ =>
      safe_bind (safe_FeIsNonZero hc) fun _ => safe_ite _
        (safe_bind (safe_FeAdd hc) fun _ => safe_bind (safe_FeIsNonZero hc) fun _ => safe_ite _ (safe_pure _)
          (safe_bind (safe_FeMul h) fun _ => safe_bind (safe_FeToBytes h) fun _ => safe_fbFinish h))
        (safe_fbFinish h)

/-! ## Scalar multiplication -/

/-- edwards25519.go:949-962 `selectPoint`. -/
def selectPoint (t pos : Nat) (b : Int) : Prog Unit := do
  let minusT ← decl
  let bNegative := negative b
  let bAbs := wrap 32 (b - wrap 32 (and32 (wrap 32 (-bNegative)) b * 2))
  preZero t
  each (fun (i : Nat) => preCMove t (baseO pos i) (equal bAbs (i + 1))) (List.range 8)
  FeCopy (minusT, 0) (t, 1)
  FeCopy (minusT, 1) (t, 0)
  FeNeg (minusT, 2) (t, 2)
  preCMove t minusT bNegative

theorem run_selectPoint (t pos : Nat) (b : Int) (m : Mem) : (selectPoint t pos b).run m = ((), Ptr.selectPoint t pos b m) := by
  simp only [selectPoint, run_bind, run_decl, run_preZero, run_FeCopy, run_FeNeg, run_preCMove, 
    run_each _ _ (fun (i : Nat) m => run_preCMove t (baseO pos i) (equal (wrap 32 (b - wrap 32 (and32 (wrap 32 (-negative b)) b * 2))) (i + 1)) m)]
  rfl

theorem safe_selectPoint {t pos : Nat} {b : Int} (h : firstFree ≤ t) : (selectPoint t pos b).Safe := by
  unfold selectPoint
  exact
    safe_decl fun minusT hm => safe_bind (safe_preZero h) fun _ => safe_bind (safe_each fun _ _ => safe_preCMove h) fun _ => safe_bind (safe_FeCopy hm) fun _ =>
      safe_bind (safe_FeCopy hm) fun _ => safe_bind (safe_FeNeg hm) fun _ => safe_preCMove h

/-- edwards25519.go:992-996 and 1009-1013, one loop with `i = 2 * pos + odd`. -/
def baseLoop (e : List Int) (odd h t r : Nat) : Prog Unit :=
  each (fun pos => do
    selectPoint t pos (lget e (2 * pos + odd))
    geMixedAdd r h t
    toExtended r h) (List.range 32)

theorem run_baseLoop (e : List Int) (odd h t r : Nat) (m : Mem) : (baseLoop e odd h t r).run m = ((), Ptr.baseLoop e odd h t r m) :=
  run_each _ _ (fun pos m => by simp only [run_bind, run_selectPoint, run_geMixedAdd, run_toExtended]) _ _

theorem safe_baseLoop {e : List Int} {odd h t r : Nat} (hh : firstFree ≤ h) (ht : firstFree ≤ t) (hr : firstFree ≤ r) : (baseLoop e odd h t r).Safe :=
  safe_each fun _ _ => safe_bind (safe_selectPoint ht) fun _ => safe_bind (safe_geMixedAdd hr) fun _ => safe_toExtended hh

/-- edwards25519.go:970-1014 `GeScalarMultBase`. -/
def GeScalarMultBase (h : Nat) (a : Bytes) : Prog Unit := do
  let e := recode 0 (nibbles a)
  extZero h
  let t ← decl
  let r ← decl
  baseLoop e 1 h t r
  let s ← decl
  extDouble h r
  complToProjective r s
  projDouble s r
  complToProjective r s
  projDouble s r
  complToProjective r s
  projDouble s r
  toExtended r h
  baseLoop e 0 h t r

theorem run_GeScalarMultBase (h : Nat) (a : Bytes) (m : Mem) : (GeScalarMultBase h a).run m = ((), Ptr.GeScalarMultBase h a m) := by
  simp only [GeScalarMultBase, run_bind, run_decl, run_extZero, run_baseLoop, run_extDouble, run_complToProjective, run_projDouble, run_toExtended]
  rfl

theorem safe_GeScalarMultBase {h : Nat} {a : Bytes} (hh : firstFree ≤ h) : (GeScalarMultBase h a).Safe := by
  unfold GeScalarMultBase
  exact
    safe_bind (safe_extZero hh) fun _ => safe_decl fun t ht => safe_decl fun r hr => safe_bind (safe_baseLoop hh ht hr) fun _ => safe_decl fun s hs =>
      safe_bind (safe_extDouble hr) fun _ => safe_bind (safe_complToProjective hs) fun _ => safe_bind (safe_projDouble hr) fun _ =>
      safe_bind (safe_complToProjective hs) fun _ => safe_bind (safe_projDouble hr) fun _ => safe_bind (safe_complToProjective hs) fun _ =>
      safe_bind (safe_projDouble hr) fun _ => safe_bind (safe_toExtended hh) fun _ => safe_baseLoop hh ht hr

/-- edwards25519.go:893-897: the loop that fills `Ai[1] ... Ai[7]`. -/
def oddLoop (ai t u a2 : Nat) : Prog Unit :=
  each (fun i => do
    geAdd t a2 (ai + i)
    toExtended t u
    toCached u (ai + (i + 1))) (List.range 7)

theorem run_oddLoop (ai t u a2 : Nat) (m : Mem) : (oddLoop ai t u a2).run m = ((), Ptr.oddLoop ai t u a2 m) :=
  run_each _ _ (fun i m => by simp only [run_bind, run_geAdd, run_toExtended, run_toCached]) _ _

theorem safe_oddLoop {ai t u a2 : Nat} (ha : firstFree ≤ ai) (ht : firstFree ≤ t) (hu : firstFree ≤ u) : (oddLoop ai t u a2).Safe :=
  safe_each fun _ _ => safe_bind (safe_geAdd ht) fun _ => safe_bind (safe_toExtended hu) fun _ => safe_toCached (Nat.le_add_right_of_le ha)

/-- edwards25519.go:909-917 or 919-925: addition or subtraction of a multiple, by the sign of the digit. -/
def digit (d : Int) (plus minus : Prog Unit) : Prog Unit := if d > 0 then plus else if d < 0 then minus else pure ()

theorem run_digit (d : Int) (p q : Prog Unit) (g g' : Mem → Mem) (hp : ∀ m, p.run m = ((), g m)) (hq : ∀ m, q.run m = ((), g' m)) (m : Mem) :
    (digit d p q).run m = ((), if d > 0 then g m else if d < 0 then g' m else m) := by
  unfold digit
  split
  · exact hp m
  · split
    · exact hq m
    · exact run_pure _ _

theorem safe_digit {d : Int} {p q : Prog Unit} (hp : p.Safe) (hq : q.Safe) : (digit d p q).Safe := safe_ite _ hp (safe_ite _ hq (safe_pure _))

/-- edwards25519.go:907-927: one iteration of the main loop. -/
def doubleStep (r ai t u : Nat) (da db : Int) : Prog Unit := do
  projDouble r t
  digit da (do
    toExtended t u
    geAdd t u (ai + (da / 2).toNat)) (do
    toExtended t u
    geSub t u (ai + (wrap 8 (-da) / 2).toNat))
  digit db (do
    toExtended t u
    geMixedAdd t u (biO (db / 2).toNat)) (do
    toExtended t u
    geMixedSub t u (biO (wrap 8 (-db) / 2).toNat))
  complToProjective t r

theorem run_two {p q : Prog Unit} {g g' : Mem → Mem} (hp : ∀ m, p.run m = ((), g m)) (hq : ∀ m, q.run m = ((), g' m)) (m : Mem) :
    (p >>= fun _ => q).run m = ((), g' (g m)) := by
  rw [run_bind, hp, hq]

theorem run_doubleStep (r ai t u : Nat) (da db : Int) (m : Mem) : (doubleStep r ai t u da db).run m = ((), Ptr.doubleStep r ai t u da db m) := by
  unfold doubleStep
  rw [run_bind, run_projDouble, run_bind, run_digit da _ _ _ _ (run_two (run_toExtended t u) (run_geAdd _ _ _)) (run_two (run_toExtended t u) (run_geSub _ _ _)),
    run_bind, run_digit db _ _ _ _ (run_two (run_toExtended t u) (run_geMixedAdd _ _ _)) (run_two (run_toExtended t u) (run_geMixedSub _ _ _)), run_complToProjective]
  rfl

theorem safe_doubleStep {r ai t u : Nat} {da db : Int} (hr : firstFree ≤ r) (ht : firstFree ≤ t) (hu : firstFree ≤ u) : (doubleStep r ai t u da db).Safe := by
  unfold doubleStep
  exact
    safe_bind (safe_projDouble ht) fun _ =>
      safe_bind (safe_digit (safe_bind (safe_toExtended hu) fun _ => safe_geAdd ht) (safe_bind (safe_toExtended hu) fun _ => safe_geSub ht)) fun _ =>
      safe_bind (safe_digit (safe_bind (safe_toExtended hu) fun _ => safe_geMixedAdd ht) (safe_bind (safe_toExtended hu) fun _ => safe_geMixedSub ht)) fun _ =>
      safe_complToProjective hr

/-- edwards25519.go:879-928 `GeDoubleScalarMultVartime`. -/
def GeDoubleScalarMultVartime (r : Nat) (a : Bytes) (A : Nat) (b : Bytes) : Prog Unit := do
  let ai ← decl8
  let t ← decl
  let u ← decl
  let a2 ← decl
  let aSlide := slide a
  let bSlide := slide b
  toCached A ai
  extDouble A t
  toExtended t a2
  oddLoop ai t u a2
  projZero r
  each (fun i => doubleStep r ai t u (lget aSlide i) (lget bSlide i))
    ((List.range 256).reverse.dropWhile fun i => lget aSlide i = 0 && lget bSlide i = 0)

theorem run_GeDoubleScalarMultVartime (r : Nat) (a : Bytes) (A : Nat) (b : Bytes) (m : Mem) :
    (GeDoubleScalarMultVartime r a A b).run m = ((), Ptr.GeDoubleScalarMultVartime r a A b m) := by
  simp only [GeDoubleScalarMultVartime, run_bind, run_decl, run_decl8, run_toCached, run_extDouble, run_toExtended, run_oddLoop, run_projZero,
    run_each _ _ (fun i m => run_doubleStep _ _ _ _ (lget (slide a) i) (lget (slide b) i) m)]
  rfl

theorem safe_GeDoubleScalarMultVartime {r : Nat} {a : Bytes} {A : Nat} {b : Bytes} (h : firstFree ≤ r) : (GeDoubleScalarMultVartime r a A b).Safe := by
  unfold GeDoubleScalarMultVartime
  exact
    safe_decl8 fun ai ha => safe_decl fun t ht => safe_decl fun u hu => safe_decl fun a2 h2 => safe_bind (safe_toCached ha) fun _ => safe_bind (safe_extDouble ht) fun _ =>
      safe_bind (safe_toExtended h2) fun _ => safe_bind (safe_oddLoop ha ht hu) fun _ => safe_bind (safe_projZero h) fun _ => safe_each fun _ _ => safe_doubleStep h ht hu

/-! ## Keys and signatures -/

/-- bip32.go:180-182 and 214-216: `h := ExtendedGroupElement{}; GeScalarMultBase(&h, &key); h.ToBytes(&result)`. -/
def basePoint (key : Bytes) : Prog Bytes := do
  let h ← decl
  GeScalarMultBase h key
  toBytes h

theorem run_basePoint (key : Bytes) (m : Mem) : (basePoint key).run m = Bip32.Ptr.basePoint key m := by
  simp only [basePoint, run_bind, run_decl, run_GeScalarMultBase, run_toBytes]; rfl

theorem safe_basePoint (key : Bytes) : (basePoint key).Safe := by
  unfold basePoint
  exact safe_decl fun _ h => safe_bind (safe_GeScalarMultBase h) fun _ => safe_toBytes

/-- bip32.go:175-184 `MakePublicKey`. -/
def MakePublicKey (extendedSecret : Bytes) : Prog (Res Bytes) :=
  if extendedSecret.length < 32 then return .panic
  else do
    let r ← basePoint (extendedSecret.take 32)
    return .ok r

theorem run_MakePublicKey (sk : Bytes) (m : Mem) : (MakePublicKey sk).run m = Bip32.Ptr.MakePublicKey sk m := by
  simp only [MakePublicKey, Bip32.Ptr.MakePublicKey, run_ite, run_bind, run_basePoint, run_pure]

theorem safe_MakePublicKey (sk : Bytes) : (MakePublicKey sk).Safe := by
  unfold MakePublicKey
  exact safe_ite _ (safe_pure _) (safe_bind (safe_basePoint _) fun _ => safe_pure _)

/-- bip32.go:198-236 `Sign`. -/
def Sign (H : Hashes) (prv message : Bytes) : Prog (Res Bytes) :=
  if prv.length < 32 then return .panic
  else do
    let publicKey ← basePoint (prv.take 32)
    if prv.length < 64 then return .panic
    else do
      let nonce := ScReduce (H.sha512 ((prv.drop 32).take 32 ++ message))
      let r ← basePoint nonce
      let signature := r ++ publicKey
      let hram := H.sha512 (signature ++ message)
      let hramReduced := ScReduce hram
      let s := ScMulAdd hramReduced (prv.take 32) nonce
      return .ok (signature.take 32 ++ s)

theorem run_Sign (H : Hashes) (prv message : Bytes) (m : Mem) : (Sign H prv message).run m = Bip32.Ptr.Sign H prv message m := by
  simp only [Sign, Bip32.Ptr.Sign, run_ite, run_bind, run_basePoint, run_pure]

theorem safe_Sign (H : Hashes) (prv message : Bytes) : (Sign H prv message).Safe := by
  unfold Sign
  exact safe_ite _ (safe_pure _) (safe_bind (safe_basePoint _) fun _ => safe_ite _ (safe_pure _) (safe_bind (safe_basePoint _) fun _ => safe_pure _))

end Cardano.Ed.Ptr.P
