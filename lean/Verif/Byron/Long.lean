import Verif.Byron.Lemmas
import Mathlib.Tactic.Ring
import Mathlib.Tactic.NormNum
/-!
# Base58 texts of long Byron addresses

`NewAddress` decides by the first letters of the text ("addr", "stake") whether to read bech32 or base58. The base58 text of
a Byron address begins with letters determined by the number of its bytes and its first bytes (82 d8 18 58, 59 or 5a).
Here: up to 2039212 bytes the text never begins with "addr" or "stake"; with 2039213 bytes it always begins with "addrA".

The numbers compared are `256^k` and `58^m`. `256^49549` is `58^67667` up to a factor 1.0000019, so that it is enough to
follow the position of `256^k` between two powers of 58 through 49549 values of `k`, with a margin; two of the values need
a finer margin.
-/
set_option autoImplicit false

namespace Cardano.Byron.Long

/-- `f n`, written so that the kernel computes `n` first. -/
def force (n : Nat) (f : Nat → Bool) : Bool := Nat.rec (f 0) (fun k _ => f (k + 1)) n

theorem force_eq (n : Nat) (f : Nat → Bool) : force n f = f n := by cases n <;> rfl

/-- `(A+1)·S ≤ P·lo`, `Q·hi·c ≤ 58·A·S·10^6` (for "addr"). -/
def goodA (c lo hi : Nat) : Bool :=
  and (Nat.ble 10544627816268750130709271648292983845669339668617072052091840626688 (Nat.mul 2195200088 lo)) (Nat.ble (Nat.mul c (Nat.mul 2195200091 hi)) 611588320141180940559701774167191707261390754492016539619342308868096000000)

/-- `58·Q·hi·c ≤ B·S·10^6` (for "stake", below). -/
def lowB (c hi : Nat) : Bool := Nat.ble (Nat.mul 58 (Nat.mul c (Nat.mul 2195200091 hi))) 925418031751858085036050162204174868767852098607743441182480064839680000000

/-- `(B+1)·S ≤ 58·P·lo` (for "stake", above). -/
def highB (lo : Nat) : Bool := Nat.ble 925418033358796129295040437746136961109014701129946434965272900141056 (Nat.mul 58 (Nat.mul 2195200088 lo))

/-- `(B+1)·S·10^12 ≤ 58·P·lo·(10^12+14986000)` (for "stake", above after eight periods). -/
def highB8 (lo : Nat) : Bool :=
  Nat.ble 925418033358796129295040437746136961109014701129946434965272900141056000000000000 (Nat.mul 58 (Nat.mul 2195200088 (Nat.mul lo 1000014986000)))

/-- The test at one value of `k`; `n` counts down from 49548. -/
def good (n lo hi : Nat) : Bool :=
  cond (Nat.beq n 41878) (and (goodA 1000075 lo hi) (or (highB lo) (lowB 1000080 hi)))
    (and (goodA 1000080 lo hi)
      (cond (Nat.beq n 18312) (and (highB8 lo) (lowB 1000014 hi)) (or (highB lo) (lowB 1000080 hi))))

/-- The loop: bounds for `2^200·256^k / 58^m`, one factor 256 at a time. -/
def go : Nat → Nat → Nat → Bool
  | 0, _, _ => true
  | n + 1, lo, hi =>
    and (good n lo hi) <|
    force (Nat.div (Nat.mul lo 256) 58) fun l => force (Nat.succ (Nat.div (Nat.mul hi 256) 58)) fun h =>
      cond (Nat.ble 611588413343587507581137755600993063048821700779790179021326756347904 (Nat.mul 2195200088 l))
        (force (Nat.div l 58) fun l => force (Nat.succ (Nat.div h 58)) fun h => go n l h) (go n l h)

theorem go_true : go 49549 24503175043483351798034677424157769209068831705350420736493 24503175043483351798034677424157769209068831705350420736494 = true := by
  decide +kernel

/-- `lo·58^m ≤ 2^200·256^k ≤ hi·58^m`. -/
structure Inv (k lo hi m : Nat) : Prop where
  lo_le : lo * 58 ^ m ≤ 2 ^ 200 * 256 ^ k
  le_hi : 2 ^ 200 * 256 ^ k ≤ hi * 58 ^ m
  two : 2 ≤ m

theorem Inv.div {S X lo hi w : Nat} (h1 : lo * w ≤ S * X) (h2 : S * X ≤ hi * w) :
    lo / 58 * (w * 58) ≤ S * X ∧ S * X ≤ (hi / 58 + 1) * (w * 58) := by
  have a : lo / 58 * 58 ≤ lo := Nat.div_mul_le_self _ _
  have b : hi ≤ (hi / 58 + 1) * 58 := by omega
  constructor
  · calc lo / 58 * (w * 58) = lo / 58 * 58 * w := by ring
      _ ≤ lo * w := Nat.mul_le_mul_right _ a
      _ ≤ _ := h1
  · calc S * X ≤ hi * w := h2
      _ ≤ (hi / 58 + 1) * 58 * w := Nat.mul_le_mul_right _ b
      _ = _ := by ring

theorem Inv.step {k lo hi m : Nat} (h : Inv k lo hi m) : Inv (k + 1) (lo * 256 / 58) (hi * 256 / 58 + 1) (m + 1) := by
  obtain ⟨h1, h2, h3⟩ := h
  have a := Inv.div (S := 2 ^ 200) (X := 256 ^ (k + 1)) (lo := lo * 256) (hi := hi * 256) (w := 58 ^ m)
    (by rw [Nat.pow_succ 256, ← Nat.mul_assoc, Nat.mul_right_comm]; exact Nat.mul_le_mul_right _ h1)
    (by rw [Nat.pow_succ 256, ← Nat.mul_assoc, Nat.mul_right_comm hi]; exact Nat.mul_le_mul_right _ h2)
  exact ⟨by rw [Nat.pow_succ 58]; exact a.1, by rw [Nat.pow_succ 58]; exact a.2, by omega⟩

theorem Inv.shift {k lo hi m : Nat} (h : Inv k lo hi m) : Inv k (lo / 58) (hi / 58 + 1) (m + 1) := by
  obtain ⟨h1, h2, h3⟩ := h
  have a := Inv.div h1 h2
  exact ⟨by rw [Nat.pow_succ 58]; exact a.1, by rw [Nat.pow_succ 58]; exact a.2, by omega⟩

theorem go_sound : ∀ (n lo hi k m : Nat), go n lo hi = true → Inv k lo hi m → ∀ j, j < n →
    ∃ lo' hi' m', Inv (k + j) lo' hi' m' ∧ good (n - 1 - j) lo' hi' = true
  | 0, _, _, _, _, _, _, _, hj => absurd hj (by omega)
  | n + 1, lo, hi, k, m, h, hi1, j, hj => by
    unfold go at h
    rw [Bool.and_eq_true] at h
    obtain ⟨h1, h2⟩ := h
    cases j with
    | zero => exact ⟨lo, hi, m, hi1, h1⟩
    | succ j =>
      simp only [force_eq] at h2
      have next : ∀ l h m, go n l h = true → Inv (k + 1) l h m →
          ∃ lo' hi' m', Inv (k + (j + 1)) lo' hi' m' ∧ good (n + 1 - 1 - (j + 1)) lo' hi' = true := by
        intro l h m hg hv
        obtain ⟨a, b, c, d, e⟩ := go_sound n l h (k + 1) m hg hv j (by omega)
        refine ⟨a, b, c, ?_, ?_⟩
        · rw [show k + (j + 1) = k + 1 + j by omega]; exact d
        · rw [show n + 1 - 1 - (j + 1) = n - 1 - j by omega]; exact e
      revert h2
      cases hb : Nat.ble 611588413343587507581137755600993063048821700779790179021326756347904 (Nat.mul 2195200088 (Nat.div (Nat.mul lo 256) 58)) with
      | true => intro h2; exact next _ _ _ h2 hi1.step.shift
      | false => intro h2; exact next _ _ _ h2 hi1.step

/-! ### One period -/

attribute [local irreducible] go good

theorem period_lo : 58 ^ 67667 * 1000001873285 ≤ 256 ^ 49549 * 1000000000000 := by decide +kernel
theorem period_hi : 256 ^ 49549 * 1000000000000 ≤ 58 ^ 67667 * 1000001873286 := by decide +kernel

theorem factor41 : ∀ a : Fin 42, 1000001873286 ^ a.val * 1000000 ≤ 1000000000000 ^ a.val * 1000080 := by decide +kernel
theorem factor40 : ∀ a : Fin 41, 1000001873286 ^ a.val * 1000000 ≤ 1000000000000 ^ a.val * 1000075 := by decide +kernel
theorem factor7 : ∀ a : Fin 8, 1000001873286 ^ a.val * 1000000 ≤ 1000000000000 ^ a.val * 1000014 := by decide +kernel
theorem factor8 : 1000000000000 ^ 8 * 1000014986000 ≤ 1000001873285 ^ 8 * 1000000000000 := by decide +kernel

/-- `v^a·D ≤ u^a·c` from `v·T ≤ u·t` and `t^a·D ≤ T^a·c`. -/
theorem grow_hi (u v T t D c a : Nat) (hT : 0 < T) (h : v * T ≤ u * t) (hf : t ^ a * D ≤ T ^ a * c) :
    v ^ a * D ≤ u ^ a * c := by
  have h1 : v ^ a * T ^ a ≤ u ^ a * t ^ a := by
    rw [← Nat.mul_pow, ← Nat.mul_pow]; exact Nat.pow_le_pow_left h a
  refine Nat.le_of_mul_le_mul_left ?_ (Nat.pow_pos (n := a) hT)
  calc T ^ a * (v ^ a * D) = v ^ a * T ^ a * D := by ring
    _ ≤ u ^ a * t ^ a * D := Nat.mul_le_mul_right _ h1
    _ = u ^ a * (t ^ a * D) := by ring
    _ ≤ u ^ a * (T ^ a * c) := Nat.mul_le_mul_left _ hf
    _ = T ^ a * (u ^ a * c) := by ring

theorem le_one (u v : Nat) (h : u * 1000001873285 ≤ v * 1000000000000) (a : Nat) : u ^ a ≤ v ^ a :=
  Nat.pow_le_pow_left (by omega) a

theorem le_eight (u v : Nat) (h : u * 1000001873285 ≤ v * 1000000000000) (a : Nat) (ha : 8 ≤ a) :
    u ^ a * 1000014986000 ≤ v ^ a * 1000000000000 := by
  have h8 : u ^ 8 * 1000014986000 ≤ v ^ 8 * 1000000000000 := by
    have h1 : u ^ 8 * 1000001873285 ^ 8 ≤ v ^ 8 * 1000000000000 ^ 8 := by
      rw [← Nat.mul_pow, ← Nat.mul_pow]; exact Nat.pow_le_pow_left h 8
    have hf := factor8
    have hT : 0 < 1000000000000 ^ 8 := by norm_num
    generalize (1000000000000 ^ 8 : Nat) = T at *
    generalize (1000001873285 ^ 8 : Nat) = t at *
    refine Nat.le_of_mul_le_mul_left ?_ hT
    calc T * (u ^ 8 * 1000014986000) = u ^ 8 * (T * 1000014986000) := by ring
      _ ≤ u ^ 8 * (t * 1000000000000) := Nat.mul_le_mul_left _ hf
      _ = u ^ 8 * t * 1000000000000 := by ring
      _ ≤ v ^ 8 * T * 1000000000000 := Nat.mul_le_mul_right _ h1
      _ = _ := by ring
  obtain ⟨b, rfl⟩ := Nat.exists_eq_add_of_le ha
  have hb := le_one u v h b
  rw [Nat.pow_add, Nat.pow_add]
  calc u ^ 8 * u ^ b * 1000014986000 = u ^ 8 * 1000014986000 * u ^ b := by ring
    _ ≤ v ^ 8 * 1000000000000 * v ^ b := Nat.mul_le_mul h8 hb
    _ = _ := by ring

/-- The lower bound after `a` periods. -/
theorem lower (α β S lo w x u v : Nat) (hS : 0 < S) (h : α * S ≤ β * lo) (hx : lo * w ≤ S * x) (huv : u ≤ v) :
    α * (w * u) ≤ β * (x * v) := by
  refine Nat.le_of_mul_le_mul_left ?_ hS
  calc S * (α * (w * u)) = α * S * (w * u) := by ring
    _ ≤ β * lo * (w * u) := Nat.mul_le_mul_right _ h
    _ = β * (lo * w) * u := by ring
    _ ≤ β * (S * x) * v := Nat.mul_le_mul (Nat.mul_le_mul_left _ hx) huv
    _ = _ := by ring

theorem lowerT (α β S T t lo w x u v : Nat) (hS : 0 < S) (hT : 0 < T) (h : α * S * T ≤ β * lo * t) (hx : lo * w ≤ S * x)
    (huv : u * t ≤ v * T) : α * (w * u) ≤ β * (x * v) := by
  refine Nat.le_of_mul_le_mul_left ?_ (Nat.mul_pos hS hT)
  calc S * T * (α * (w * u)) = α * S * T * (w * u) := by ring
    _ ≤ β * lo * t * (w * u) := Nat.mul_le_mul_right _ h
    _ = β * (lo * w) * (u * t) := by ring
    _ ≤ β * (S * x) * (v * T) := Nat.mul_le_mul (Nat.mul_le_mul_left _ hx) huv
    _ = _ := by ring

/-- The upper bound after `a` periods. -/
theorem upper (α β S D c hi w x u v : Nat) (hS : 0 < S) (hD : 0 < D) (h : β * hi * c ≤ α * S * D) (hx : S * x ≤ hi * w)
    (huv : v * D ≤ u * c) : β * (x * v) ≤ α * (w * u) := by
  refine Nat.le_of_mul_le_mul_left ?_ (Nat.mul_pos hS hD)
  calc S * D * (β * (x * v)) = β * (S * x) * (v * D) := by ring
    _ ≤ β * (hi * w) * (u * c) := Nat.mul_le_mul (Nat.mul_le_mul_left _ hx) huv
    _ = β * hi * c * (w * u) := by ring
    _ ≤ α * S * D * (w * u) := Nat.mul_le_mul_right _ h
    _ = _ := by ring

/-- The numbers of `k + 4` bytes beginning with 82 d8 18 58, 59 or 5a lie between two multiples of powers of 58. -/
def Gap (k : Nat) : Prop :=
  (∃ m, 6561938 * 58 ^ m ≤ 2195200088 * 256 ^ k ∧ 2195200091 * 256 ^ k ≤ 6561937 * 58 ^ (m + 1)) ∧
  (∃ m, 575889056 * 58 ^ m ≤ 2195200088 * 256 ^ k ∧ 2195200091 * 256 ^ k ≤ 575889055 * 58 ^ (m + 1))

/-- What one successful test says about `x·v = 256^k` and `w·u = 58^m`. -/
theorem gap_of (k m w u x v : Nat) (hw : w * u = 58 ^ m) (hm : 2 ≤ m) (hx : x * v = 256 ^ k)
    (h1 : 6561938 * (w * u) ≤ 2195200088 * (x * v)) (h2 : 2195200091 * (x * v) ≤ 380592346 * (w * u))
    (h3 : 575889056 * (w * u) ≤ 127321605104 * (x * v) ∨ 127321605278 * (x * v) ≤ 575889055 * (w * u)) : Gap k := by
  obtain ⟨m, rfl⟩ := Nat.exists_eq_add_of_le' hm
  rw [hw, hx] at h1 h2 h3
  refine ⟨⟨m + 2, h1, by rw [Nat.pow_succ]; omega⟩, ?_⟩
  rw [Nat.pow_succ, Nat.pow_succ] at h1 h2 h3
  rcases h3 with h3 | h3
  · exact ⟨m + 1, by rw [Nat.pow_succ]; omega, by rw [Nat.pow_succ, Nat.pow_succ]; omega⟩
  · exact ⟨m, by omega, by rw [Nat.pow_succ]; omega⟩

theorem goodA_iff (c lo hi : Nat) : goodA c lo hi = true ↔
    6561938 * 2 ^ 200 ≤ 2195200088 * lo ∧ 2195200091 * hi * c ≤ 380592346 * 2 ^ 200 * 1000000 := by
  unfold goodA
  rw [Bool.and_eq_true, Nat.ble_eq, Nat.ble_eq]
  show _ ≤ 2195200088 * lo ∧ c * (2195200091 * hi) ≤ _ ↔ _
  rw [Nat.mul_comm c]
  norm_num

theorem lowB_iff (c hi : Nat) : lowB c hi = true ↔ 127321605278 * hi * c ≤ 575889055 * 2 ^ 200 * 1000000 := by
  unfold lowB
  rw [Nat.ble_eq]
  show 58 * (c * (2195200091 * hi)) ≤ _ ↔ _
  rw [show 58 * (c * (2195200091 * hi)) = 127321605278 * hi * c by ring]
  norm_num

theorem highB_iff (lo : Nat) : highB lo = true ↔ 575889056 * 2 ^ 200 ≤ 127321605104 * lo := by
  unfold highB
  rw [Nat.ble_eq]
  show _ ≤ 58 * (2195200088 * lo) ↔ _
  rw [show 58 * (2195200088 * lo) = 127321605104 * lo by ring]
  norm_num

theorem highB8_iff (lo : Nat) : highB8 lo = true ↔ 575889056 * 2 ^ 200 * 1000000000000 ≤ 127321605104 * lo * 1000014986000 := by
  unfold highB8
  rw [Nat.ble_eq]
  show _ ≤ 58 * (2195200088 * (lo * 1000014986000)) ↔ _
  rw [show 58 * (2195200088 * (lo * 1000014986000)) = 127321605104 * lo * 1000014986000 by ring]
  norm_num

/-- The test for `r`, used `a` periods later. -/
theorem gap_good (r lo hi m a n : Nat) (hv : Inv r lo hi m) (hg : good n lo hi = true) (ha : a ≤ 41)
    (h1 : n = 41878 → a ≤ 40) : Gap (r + 49549 * a) := by
  obtain ⟨v1, v2, v3⟩ := hv
  have pl := period_lo
  have ph := period_hi
  have hx : 256 ^ r * (256 ^ 49549) ^ a = 256 ^ (r + 49549 * a) := by rw [Nat.pow_add, Nat.pow_mul]
  have hw : 58 ^ m * (58 ^ 67667) ^ a = 58 ^ (m + 67667 * a) := by rw [Nat.pow_add, Nat.pow_mul]
  generalize (58 ^ 67667 : Nat) = u at *
  generalize (256 ^ 49549 : Nat) = v at *
  have c80 := grow_hi u v _ _ _ _ a (by norm_num) ph (factor41 ⟨a, by omega⟩)
  have c75 : a ≤ 40 → _ := fun h => grow_hi u v _ _ _ _ a (by norm_num) ph (factor40 ⟨a, by omega⟩)
  have c14 : a ≤ 7 → _ := fun h => grow_hi u v _ _ _ _ a (by norm_num) ph (factor7 ⟨a, by omega⟩)
  have cl := le_one u v pl a
  have cl8 := le_eight u v pl a
  have hS : 0 < 2 ^ 200 := by norm_num
  have either : (highB lo || lowB 1000080 hi) = true →
      575889056 * (58 ^ m * u ^ a) ≤ 127321605104 * (256 ^ r * v ^ a) ∨ 127321605278 * (256 ^ r * v ^ a) ≤ 575889055 * (58 ^ m * u ^ a) := by
    intro h
    rw [Bool.or_eq_true, highB_iff, lowB_iff] at h
    rcases h with h | h
    · exact .inl (lower _ _ _ _ _ _ _ _ hS h v1 cl)
    · exact .inr (upper _ _ _ _ _ _ _ _ _ _ hS (by norm_num) h v2 c80)
  unfold good at hg
  cases he : Nat.beq n 41878 with
  | true =>
    rw [he, cond_true, Bool.and_eq_true, goodA_iff] at hg
    obtain ⟨⟨g1, g2⟩, g3⟩ := hg
    exact gap_of _ _ _ _ _ _ hw (by omega) hx (lower _ _ _ _ _ _ _ _ hS g1 v1 cl)
      (upper _ _ _ _ _ _ _ _ _ _ hS (by norm_num) g2 v2 (c75 (h1 (Nat.eq_of_beq_eq_true he)))) (either g3)
  | false =>
    rw [he, cond_false, Bool.and_eq_true, goodA_iff] at hg
    obtain ⟨⟨g1, g2⟩, g3⟩ := hg
    refine gap_of _ _ _ _ _ _ hw (by omega) hx (lower _ _ _ _ _ _ _ _ hS g1 v1 cl)
      (upper _ _ _ _ _ _ _ _ _ _ hS (by norm_num) g2 v2 c80) ?_
    cases he2 : Nat.beq n 18312 with
    | true =>
      rw [he2, cond_true, Bool.and_eq_true, highB8_iff, lowB_iff] at g3
      by_cases h7 : a ≤ 7
      · exact .inr (upper _ _ _ _ _ _ _ _ _ _ hS (by norm_num) g3.2 v2 (c14 h7))
      · exact .inl (lowerT _ _ _ _ _ _ _ _ _ _ hS (by norm_num) g3.1 v1 (cl8 (by omega)))
    | false =>
      rw [he2, cond_false] at g3
      exact either g3

theorem start : Inv 30 24503175043483351798034677424157769209068831705350420736493 24503175043483351798034677424157769209068831705350420736494 42 :=
  ⟨by decide +kernel, by decide +kernel, by omega⟩

theorem gap (k : Nat) (h1 : 30 ≤ k) (h2 : k < 2039209) : Gap k := by
  have hq := Nat.div_add_mod (k - 30) 49549
  have hr := Nat.mod_lt (k - 30) (by omega : 49549 > 0)
  obtain ⟨lo, hi, m, hv, hg⟩ := go_sound 49549 _ _ 30 42 go_true start ((k - 30) % 49549) hr
  have := gap_good _ _ _ _ ((k - 30) / 49549) _ hv hg (by omega) (by omega)
  rwa [show 30 + (k - 30) % 49549 + 49549 * ((k - 30) / 49549) = k by omega] at this

end Cardano.Byron.Long
