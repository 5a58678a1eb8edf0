import Verif.Go.Basic
/-!
# Machine arithmetic used by the model of `crypto/edwards25519`

The field and scalar arithmetic of `edwards25519.go` is straight-line code on `int32` and `int64` variables. A variable is
modelled by the mathematical integer it holds, and every operation ends with `wrap w`, the two's complement wrap-around of Go's
`w`-bit signed integers. A group of numbered variables (`h0 ... h9`, `s0 ... s23`) is a list.

Two kinds of statement occur again and again and are named here: the three line carry, and the seven line reduction of a
high limb. `bounds` below is an interval analysis of such programs: when it succeeds no operation overflows.
-/
set_option autoImplicit false

namespace Cardano.Ed

/-- Two's complement wrap-around of a `w`-bit signed integer. -/
def wrap (w : Nat) (x : Int) : Int := Int.bmod x (2 ^ w)

/-- Numbered variables. -/
abbrev Limbs := List Int

/-- Variable number `i`. -/
def lget (s : Limbs) (i : Nat) : Int := s.getD i 0

/-- The recurring statement groups. -/
inductive Op where
  /-- `c = (s_i + r) >> k;  s_j += c * m;  s_i -= c << k` -/
  | carry (i j k : Nat) (r m : Int)
  /-- `s_a += s_j * x;  s_b += s_j * y;  ...;  s_j = 0` for `l = [(a, x), (b, y), ...]`. Go writes `s_a -= s_j * x` when the
  coefficient is `-x`: the same wrapped value. -/
  | fold (j : Nat) (l : List (Nat × Int))
  deriving DecidableEq

/-- `s_a += t * x` for every `(a, x)` of the list, with `w`-bit integers. -/
def addMuls (w : Nat) (t : Int) : Limbs → List (Nat × Int) → Limbs
  | s, [] => s
  | s, (a, x) :: l => addMuls w t (s.set a (wrap w (lget s a + wrap w (t * x)))) l

/-- Effect of a statement group on `w`-bit integers. A right shift of a signed integer is a division rounding down. -/
def step (w : Nat) (s : Limbs) : Op → Limbs
  | .carry i j k r m =>
    let c := wrap w (lget s i + r) / 2 ^ k
    let s := s.set j (wrap w (lget s j + wrap w (c * m)))
    s.set i (wrap w (lget s i - wrap w (c * 2 ^ k)))
  | .fold j l => (addMuls w (lget s j) s l).set j 0

/-- Effect of a program. -/
def exec (w : Nat) (s : Limbs) (p : List Op) : Limbs := p.foldl (step w) s

/-- Right hand sides: `int64` expressions over `int32` or `int64` variables. -/
inductive E where
  /-- variable number `i` -/
  | v (i : Nat)
  /-- `int64(c * x)` where `x` is the `int32` variable number `i` -/
  | k32 (c : Int) (i : Nat)
  /-- `c * int64(x)` -/
  | k64 (c : Int) (i : Nat)
  | add (a b : E)
  | mul (a b : E)
  deriving DecidableEq

instance : Add E := ⟨E.add⟩
instance : Mul E := ⟨E.mul⟩

def E.eval (s : Limbs) : E → Int
  | .v i => lget s i
  | .k32 c i => wrap 32 (c * lget s i)
  | .k64 c i => wrap 64 (c * lget s i)
  | .add a b => wrap 64 (a.eval s + b.eval s)
  | .mul a b => wrap 64 (a.eval s * b.eval s)

/-! ## The same without wrap-around -/

def addMulsZ (t : Int) : Limbs → List (Nat × Int) → Limbs
  | s, [] => s
  | s, (a, x) :: l => addMulsZ t (s.set a (lget s a + t * x)) l

def stepZ (s : Limbs) : Op → Limbs
  | .carry i j k r m =>
    let c := (lget s i + r) / 2 ^ k
    let s := s.set j (lget s j + c * m)
    s.set i (lget s i - c * 2 ^ k)
  | .fold j l => (addMulsZ (lget s j) s l).set j 0

def execZ (s : Limbs) (p : List Op) : Limbs := p.foldl stepZ s

def E.evalZ (s : Limbs) : E → Int
  | .v i => lget s i
  | .k32 c i => c * lget s i
  | .k64 c i => c * lget s i
  | .add a b => a.evalZ s + b.evalZ s
  | .mul a b => a.evalZ s * b.evalZ s

/-! ## Interval analysis -/

/-- An interval: lower and upper bound. -/
abbrev Iv := Int × Int

def Iv.mem (x : Int) (b : Iv) : Prop := b.1 ≤ x ∧ x ≤ b.2

/-- The interval lies within the `w`-bit signed integers. -/
def fits (w : Nat) (b : Iv) : Bool := decide (-(2 ^ (w - 1) : Int) ≤ b.1) && decide (b.2 < (2 ^ (w - 1) : Int))

def Iv.add (a b : Iv) : Iv := (a.1 + b.1, a.2 + b.2)

/-- Product with a constant. -/
def Iv.scale (a : Iv) (c : Int) : Iv := if 0 ≤ c then (a.1 * c, a.2 * c) else (a.2 * c, a.1 * c)

def Iv.sub (a b : Iv) : Iv := (a.1 - b.2, a.2 - b.1)

def bget (b : List Iv) (i : Nat) : Iv := b.getD i (0, 0)

def boundMuls (w : Nat) (t : Iv) : List Iv → List (Nat × Int) → Option (List Iv)
  | b, [] => some b
  | b, (a, x) :: l =>
    let p := t.scale x
    let q := (bget b a).add p
    if fits w p && fits w q && decide (a < b.length) then boundMuls w t (b.set a q) l else none

def boundStep (w : Nat) (b : List Iv) : Op → Option (List Iv)
  | .carry i j k r m =>
    let u : Iv := (bget b i).add (r, r)
    let c : Iv := (u.1 / 2 ^ k, u.2 / 2 ^ k)
    let cm := c.scale m
    let q := (bget b j).add cm
    let d := c.scale (2 ^ k)
    if fits w u && fits w cm && fits w q && fits w d && fits w (-r, 2 ^ k - 1 - r) && decide (i ≠ j)
        && decide (i < b.length) && decide (j < b.length) then
      some ((b.set j q).set i (-r, 2 ^ k - 1 - r))
    else none
  | .fold j l =>
    if decide (j < b.length) && l.all (fun p => p.1 ≠ j) then
      (boundMuls w (bget b j) b l).map (fun b => b.set j (0, 0))
    else none

/-- Intervals after a program, or `none` when some operation might overflow. -/
def bounds (w : Nat) : List Iv → List Op → Option (List Iv)
  | b, [] => some b
  | b, o :: p => match boundStep w b o with
    | none => none
    | some b => bounds w b p

def E.bound (b : List Nat) : E → Option Nat
  | .v i => some (b.getD i 0)
  | .k32 c i => let n := c.natAbs * b.getD i 0; if n < 2 ^ 31 then some n else none
  | .k64 c i => let n := c.natAbs * b.getD i 0; if n < 2 ^ 63 then some n else none
  | .add x y => match x.bound b, y.bound b with
    | some m, some n => if m + n < 2 ^ 63 then some (m + n) else none
    | _, _ => none
  | .mul x y => match x.bound b, y.bound b with
    | some m, some n => if m * n < 2 ^ 63 then some (m * n) else none
    | _, _ => none

/-! ## Soundness -/

/-- Every variable is within its interval. -/
def Within (b : List Iv) (s : Limbs) : Prop := s.length = b.length ∧ ∀ i, i < s.length → Iv.mem (lget s i) (bget b i)

/-- Every variable is bounded in absolute value. -/
def AbsLe (b : List Nat) (s : Limbs) : Prop := s.length = b.length ∧ ∀ i, i < s.length → (lget s i).natAbs ≤ b.getD i 0

theorem wrap_id {w : Nat} {x : Int} (h1 : -(2 ^ (w - 1) : Int) ≤ x) (h2 : x < (2 ^ (w - 1) : Int)) (hw : 0 < w) :
    wrap w x = x := by
  unfold wrap
  obtain ⟨n, rfl⟩ : ∃ n, w = n + 1 := ⟨w - 1, by omega⟩
  simp only [Nat.add_sub_cancel] at h1 h2
  have e : (2 : Int) ^ n = ((2 ^ n : Nat) : Int) := by simp
  rw [e] at h1 h2
  apply Int.bmod_eq_of_le <;> (rw [Nat.pow_succ]; omega)

theorem fits_wrap {w : Nat} {b : Iv} {x : Int} (h : fits w b = true) (hx : Iv.mem x b) (hw : 0 < w) : wrap w x = x := by
  simp only [fits, Bool.and_eq_true, decide_eq_true_eq] at h
  exact wrap_id (by have := hx.1; omega) (by have := hx.2; omega) hw

theorem Iv.mem_add {a b : Iv} {x y : Int} (hx : Iv.mem x a) (hy : Iv.mem y b) : Iv.mem (x + y) (a.add b) := by
  simp only [Iv.mem, Iv.add] at *; omega

theorem Iv.mem_scale {a : Iv} {x : Int} (hx : Iv.mem x a) (c : Int) : Iv.mem (x * c) (a.scale c) := by
  unfold Iv.scale
  split
  · exact ⟨Int.mul_le_mul_of_nonneg_right hx.1 (by omega), Int.mul_le_mul_of_nonneg_right hx.2 (by omega)⟩
  · exact ⟨Int.mul_le_mul_of_nonpos_right hx.2 (by omega), Int.mul_le_mul_of_nonpos_right hx.1 (by omega)⟩

theorem lget_set (s : Limbs) (i j : Nat) (x : Int) (hi : i < s.length) :
    lget (s.set i x) j = if j = i then x else lget s j := by
  unfold lget
  by_cases h : j = i
  · subst h; simp [hi]
  · simp [h, Ne.symm h]

theorem bget_set (s : List Iv) (i j : Nat) (x : Iv) (hi : i < s.length) :
    bget (s.set i x) j = if j = i then x else bget s j := by
  unfold bget
  by_cases h : j = i
  · subst h; simp [hi]
  · simp [h, Ne.symm h]

theorem Within.get {b : List Iv} {s : Limbs} (h : Within b s) (i : Nat) : Iv.mem (lget s i) (bget b i) := by
  by_cases hi : i < s.length
  · exact h.2 i hi
  · have h1 : lget s i = 0 := by
      unfold lget; simp [List.getElem?_eq_none (Nat.le_of_not_lt hi)]
    have h2 : bget b i = (0, 0) := by
      unfold bget; simp [List.getElem?_eq_none (h.1 ▸ Nat.le_of_not_lt hi)]
    rw [h1, h2]; exact ⟨Int.le_refl _, Int.le_refl _⟩

theorem Within.set {b : List Iv} {s : Limbs} (h : Within b s) {i : Nat} {x : Int} {q : Iv} (hx : Iv.mem x q) :
    Within (b.set i q) (s.set i x) := by
  refine ⟨by simpa using h.1, fun j hj => ?_⟩
  by_cases hi : i < s.length
  · rw [lget_set _ _ _ _ hi, bget_set _ _ _ _ (h.1 ▸ hi)]
    split
    · exact hx
    · exact h.get j
  · rw [List.set_eq_of_length_le (Nat.le_of_not_lt hi), List.set_eq_of_length_le (h.1 ▸ Nat.le_of_not_lt hi)]
    exact h.get j

theorem boundMuls_sound {w : Nat} (hw : 0 < w) {t : Iv} {x : Int} (ht : Iv.mem x t) :
    ∀ (l : List (Nat × Int)) (b b' : List Iv) (s : Limbs), boundMuls w t b l = some b' → Within b s →
      addMuls w x s l = addMulsZ x s l ∧ Within b' (addMulsZ x s l)
  | [], b, b', s, h, hs => by
    simp only [boundMuls, Option.some.injEq] at h
    subst h; exact ⟨rfl, hs⟩
  | (a, y) :: l, b, b', s, h, hs => by
    simp only [boundMuls] at h
    split at h
    · rename_i hf
      simp only [Bool.and_eq_true, decide_eq_true_eq] at hf
      have m1 : Iv.mem (x * y) (t.scale y) := Iv.mem_scale ht y
      have m2 : Iv.mem (lget s a + x * y) ((bget b a).add (t.scale y)) := Iv.mem_add (hs.get a) m1
      simp only [addMuls, addMulsZ]
      rw [fits_wrap hf.1.1 m1 hw, fits_wrap hf.1.2 m2 hw]
      exact boundMuls_sound hw ht l _ _ _ h (hs.set m2)
    · cases h

theorem boundStep_sound {w : Nat} (hw : 0 < w) {b b' : List Iv} {s : Limbs} {o : Op} (h : boundStep w b o = some b')
    (hs : Within b s) : step w s o = stepZ s o ∧ Within b' (stepZ s o) := by
  cases o with
  | carry i j k r m =>
    simp only [boundStep] at h
    split at h
    · rename_i hf
      simp only [Bool.and_eq_true, decide_eq_true_eq] at hf
      obtain ⟨⟨⟨⟨⟨⟨⟨f1, f2⟩, f3⟩, f4⟩, f5⟩, hne⟩, hi⟩, hj⟩ := hf
      cases h
      have hk : (0 : Int) < 2 ^ k := Int.pow_pos (by decide)
      have m1 : Iv.mem (lget s i + r) ((bget b i).add (r, r)) := Iv.mem_add (hs.get i) ⟨Int.le_refl _, Int.le_refl _⟩
      have m2 : Iv.mem ((lget s i + r) / 2 ^ k)
          (((bget b i).add (r, r)).1 / 2 ^ k, ((bget b i).add (r, r)).2 / 2 ^ k) :=
        ⟨Int.ediv_le_ediv hk m1.1, Int.ediv_le_ediv hk m1.2⟩
      have m3 := Iv.mem_scale m2 m
      have m4 := Iv.mem_add (hs.get j) m3
      have m5 := Iv.mem_scale m2 (2 ^ k)
      have m6 : Iv.mem (lget s i - (lget s i + r) / 2 ^ k * 2 ^ k) (-r, 2 ^ k - 1 - r) := by
        have e := Int.emod_add_mul_ediv (lget s i + r) (2 ^ k)
        have l1 := Int.emod_nonneg (lget s i + r) (Int.ne_of_gt hk)
        have l2 := Int.emod_lt_of_pos (lget s i + r) hk
        rw [Int.mul_comm] at e
        constructor <;> simp only <;> omega
      have hgi : lget (s.set j (lget s j + (lget s i + r) / 2 ^ k * m)) i = lget s i := by
        rw [lget_set _ _ _ _ (by rw [hs.1]; exact hj), if_neg hne]
      simp only [step, stepZ]
      rw [fits_wrap f1 m1 hw, fits_wrap f2 m3 hw, fits_wrap f3 m4 hw, fits_wrap f4 m5 hw, hgi, fits_wrap f5 m6 hw]
      exact ⟨rfl, (hs.set m4).set m6⟩
    · cases h
  | fold j l =>
    simp only [boundStep] at h
    split at h
    · rename_i hf
      simp only [Bool.and_eq_true, decide_eq_true_eq] at hf
      simp only [Option.map_eq_some_iff] at h
      obtain ⟨b1, h1, rfl⟩ := h
      obtain ⟨e, hwi⟩ := boundMuls_sound hw (hs.get j) l b b1 s h1 hs
      simp only [step, stepZ, e]
      exact ⟨trivial, hwi.set ⟨Int.le_refl _, Int.le_refl _⟩⟩
    · cases h

/-- When the analysis succeeds the program computes on mathematical integers, within the intervals found. -/
theorem bounds_sound {w : Nat} (hw : 0 < w) : ∀ (p : List Op) (b b' : List Iv) (s : Limbs),
    bounds w b p = some b' → Within b s → exec w s p = execZ s p ∧ Within b' (execZ s p)
  | [], b, b', s, h, hs => by
    simp only [bounds, Option.some.injEq] at h
    subst h; exact ⟨rfl, hs⟩
  | o :: p, b, b', s, h, hs => by
    simp only [bounds] at h
    split at h
    · cases h
    · rename_i b1 h1
      obtain ⟨e, hwi⟩ := boundStep_sound hw h1 hs
      have := bounds_sound hw p b1 b' (stepZ s o) h hwi
      simp only [exec, execZ, List.foldl_cons] at *
      rw [e]; exact this

theorem AbsLe.get {b : List Nat} {s : Limbs} (h : AbsLe b s) (i : Nat) : (lget s i).natAbs ≤ b.getD i 0 := by
  by_cases hi : i < s.length
  · exact h.2 i hi
  · unfold lget; simp [List.getElem?_eq_none (Nat.le_of_not_lt hi)]

theorem wrap_natAbs {w : Nat} (hw : 0 < w) {x : Int} (h : x.natAbs < 2 ^ (w - 1)) : wrap w x = x := by
  have e : (2 : Int) ^ (w - 1) = ((2 ^ (w - 1) : Nat) : Int) := by simp
  apply wrap_id _ _ hw <;> rw [e] <;> omega

theorem E.bound_sound {b : List Nat} {s : Limbs} (hs : AbsLe b s) : ∀ (e : E) (n : Nat), e.bound b = some n →
    e.eval s = e.evalZ s ∧ (e.evalZ s).natAbs ≤ n
  | .v i, n, h => by
    simp only [E.bound, Option.some.injEq] at h
    subst h; exact ⟨rfl, hs.get i⟩
  | .k32 c i, n, h => by
    simp only [E.bound] at h
    split at h
    · rename_i hf
      cases h
      have : (c * lget s i).natAbs ≤ c.natAbs * b.getD i 0 := by
        rw [Int.natAbs_mul]; exact Nat.mul_le_mul_left _ (hs.get i)
      exact ⟨wrap_natAbs (by decide) (by omega), this⟩
    · cases h
  | .k64 c i, n, h => by
    simp only [E.bound] at h
    split at h
    · rename_i hf
      cases h
      have : (c * lget s i).natAbs ≤ c.natAbs * b.getD i 0 := by
        rw [Int.natAbs_mul]; exact Nat.mul_le_mul_left _ (hs.get i)
      exact ⟨wrap_natAbs (by decide) (by omega), this⟩
    · cases h
  | .add x y, n, h => by
    simp only [E.bound] at h
    split at h
    · rename_i m1 n1 hx hy
      split at h
      · cases h
        obtain ⟨e1, b1⟩ := E.bound_sound hs x _ hx
        obtain ⟨e2, b2⟩ := E.bound_sound hs y _ hy
        have : (x.evalZ s + y.evalZ s).natAbs ≤ m1 + n1 := by omega
        simp only [E.eval, E.evalZ, e1, e2]
        exact ⟨wrap_natAbs (by decide) (by omega), this⟩
      · cases h
    · cases h
  | .mul x y, n, h => by
    simp only [E.bound] at h
    split at h
    · rename_i m1 n1 hx hy
      split at h
      · cases h
        obtain ⟨e1, b1⟩ := E.bound_sound hs x _ hx
        obtain ⟨e2, b2⟩ := E.bound_sound hs y _ hy
        have : (x.evalZ s * y.evalZ s).natAbs ≤ m1 * n1 := by
          rw [Int.natAbs_mul]; exact Nat.mul_le_mul b1 b2
        simp only [E.eval, E.evalZ, e1, e2]
        exact ⟨wrap_natAbs (by decide) (by omega), this⟩
      · cases h
    · cases h

/-! ## Weighted sums -/

/-- `Σ w_i s_i` -/
def dot : List Int → Limbs → Int
  | w :: ws, s :: ss => w * s + dot ws ss
  | _, _ => 0

theorem dot_set : ∀ (w : List Int) (s : Limbs) (i : Nat) (x : Int), i < s.length → i < w.length →
    dot w (s.set i x) = dot w s + lget w i * (x - lget s i)
  | [], s, i, x, _, h => by simp at h
  | w :: ws, [], i, x, h, _ => by simp at h
  | w :: ws, s :: ss, 0, x, _, _ => by
    simp only [List.set_cons_zero, dot, lget, List.getD_cons_zero, Int.mul_sub]; omega
  | w :: ws, s :: ss, i + 1, x, h1, h2 => by
    have ih := dot_set ws ss i x (by simpa using h1) (by simpa using h2)
    simp only [List.set_cons_succ, dot, lget, List.getD_cons_succ] at *
    rw [ih]; omega

/-- `Σ x w_a` over the list `l` of pairs `(a, x)`. -/
def weightSum (w : List Int) : List (Nat × Int) → Int
  | [] => 0
  | (a, x) :: l => lget w a * x + weightSum w l

/-- The statement group preserves the weighted sum modulo `M` (exactly, when `M = 0`), on `n` variables. -/
def keeps (w : List Int) (M : Int) (n : Nat) : Op → Bool
  | .carry i j k _ m => decide (i ≠ j) && decide (i < n) && decide (j < n) && decide ((lget w j * m - lget w i * 2 ^ k) % M = 0)
  | .fold j l => decide (j < n) && l.all (fun p => decide (p.1 ≠ j) && decide (p.1 < n)) &&
      decide ((weightSum w l - lget w j) % M = 0)

theorem addMulsZ_length (t : Int) : ∀ (l : List (Nat × Int)) (s : Limbs), (addMulsZ t s l).length = s.length
  | [], s => rfl
  | (a, x) :: l, s => by simp only [addMulsZ]; rw [addMulsZ_length t l]; simp

theorem stepZ_length (s : Limbs) (o : Op) : (stepZ s o).length = s.length := by
  cases o with
  | carry i j k r m => simp [stepZ]
  | fold j l => simp [stepZ, addMulsZ_length]

theorem execZ_length : ∀ (p : List Op) (s : Limbs), (execZ s p).length = s.length
  | [], s => rfl
  | o :: p, s => by
    simp only [execZ, List.foldl_cons]
    have := execZ_length p (stepZ s o)
    simp only [execZ] at this
    rw [this, stepZ_length]

theorem addMulsZ_dot (w : List Int) (t : Int) (j : Nat) : ∀ (l : List (Nat × Int)) (s : Limbs), s.length = w.length →
    (∀ p ∈ l, p.1 ≠ j ∧ p.1 < s.length) →
    dot w (addMulsZ t s l) = dot w s + weightSum w l * t ∧ lget (addMulsZ t s l) j = lget s j
  | [], s, _, _ => by simp [addMulsZ, weightSum]
  | (a, x) :: l, s, hl, h => by
    have ha := h (a, x) (by simp)
    have ih := addMulsZ_dot w t j l (s.set a (lget s a + t * x)) (by simpa using hl)
      (fun p hp => by have := h p (by simp [hp]); simpa using this)
    simp only [addMulsZ, weightSum]
    rw [ih.1, ih.2, dot_set _ _ _ _ ha.2 (hl ▸ ha.2), lget_set _ _ _ _ ha.2, if_neg (Ne.symm ha.1)]
    refine ⟨?_, rfl⟩
    rw [Int.add_mul, show lget s a + t * x - lget s a = t * x by omega, Int.mul_comm t x, ← Int.mul_assoc]
    dsimp only
    omega

theorem stepZ_keeps {w : List Int} {M : Int} {s : Limbs} {o : Op} (hl : s.length = w.length)
    (h : keeps w M s.length o = true) : M ∣ dot w (stepZ s o) - dot w s := by
  cases o with
  | carry i j k r m =>
    simp only [keeps, Bool.and_eq_true, decide_eq_true_eq] at h
    obtain ⟨⟨⟨hne, hi⟩, hj⟩, hm⟩ := h
    have hd := Int.dvd_of_emod_eq_zero hm
    simp only [stepZ]
    rw [dot_set _ _ _ _ (by simpa using hi) (hl ▸ hi), dot_set _ _ _ _ hj (hl ▸ hj), lget_set _ _ _ _ hj, if_neg hne]
    generalize (lget s i + r) / 2 ^ k = c
    have e : dot w s + lget w j * (lget s j + c * m - lget s j) + lget w i * (lget s i - c * 2 ^ k - lget s i) - dot w s
        = (lget w j * m - lget w i * 2 ^ k) * c := by
      rw [show lget s j + c * m - lget s j = m * c by rw [Int.mul_comm c m]; omega,
        show lget s i - c * 2 ^ k - lget s i = -(2 ^ k * c) by rw [Int.mul_comm c (2 ^ k)]; omega,
        Int.mul_neg, Int.sub_mul, Int.mul_assoc, Int.mul_assoc]
      omega
    rw [e]
    exact Int.dvd_trans hd (Int.dvd_mul_right _ _)
  | fold j l =>
    simp only [keeps, Bool.and_eq_true, decide_eq_true_eq, List.all_eq_true] at h
    obtain ⟨⟨hj, ha⟩, hm⟩ := h
    have hd := Int.dvd_of_emod_eq_zero hm
    have := addMulsZ_dot w (lget s j) j l s hl ha
    simp only [stepZ]
    rw [dot_set _ _ _ _ (by rw [addMulsZ_length]; exact hj) (hl ▸ hj), this.1, this.2]
    have e : dot w s + weightSum w l * lget s j + lget w j * (0 - lget s j) - dot w s
        = (weightSum w l - lget w j) * lget s j := by
      rw [Int.zero_sub, Int.mul_neg, Int.sub_mul]; omega
    rw [e]
    exact Int.dvd_trans hd (Int.dvd_mul_right _ _)

/-- A program of such groups preserves the weighted sum modulo `M`. -/
theorem execZ_keeps {w : List Int} {M : Int} : ∀ (p : List Op) (s : Limbs), s.length = w.length →
    p.all (keeps w M w.length) = true → M ∣ dot w (execZ s p) - dot w s
  | [], s, _, _ => by simp [execZ]
  | o :: p, s, hl, h => by
    simp only [List.all_cons, Bool.and_eq_true] at h
    have h1 := stepZ_keeps hl (hl ▸ h.1)
    have h2 := execZ_keeps p (stepZ s o) (by rw [stepZ_length]; exact hl) h.2
    simp only [execZ, List.foldl_cons] at *
    have := Int.dvd_add h2 h1
    rwa [show ∀ a b c : Int, a - b + (b - c) = a - c by intros; omega] at this

end Cardano.Ed
