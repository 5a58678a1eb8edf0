import Verif.Ed25519.FieldRing
import Mathlib.Data.Int.ModEq
/-!
# Properties C39, C40: the field of `2^255 - 19` elements
-/
set_option autoImplicit false

namespace Cardano.Props
open Ed

/-- The prime of RFC 8032, section 5.1. -/
def P : Nat := 57896044618658097711785492504343953926634992332820282019728792003956564819949

theorem P_eq : fieldP = P := by decide +kernel

/-- The integer represented by ten limbs: `t[0] + 2^26 t[1] + 2^51 t[2] + 2^77 t[3] + 2^102 t[4] + ... + 2^230 t[9]`, that is limb `i`
has weight `2^⌈25.5 i⌉`. -/
def value (x : List Int) : Int := ((List.range 10).map fun i => x.getD i 0 * 2 ^ ((51 * i + 1) / 2)).sum

/-- Ten limbs bounded by `n` times `1.1*2^25, 1.1*2^24, 1.1*2^25, 1.1*2^24, ...`: the comments of the source with `n = 1` and `n = 2`. -/
structure Bounded (n : Nat) (x : List Int) : Prop where
  size : x.length = 10
  bound : ∀ i, i < 10 → 10 * |x.getD i 0| ≤ 11 * n * 2 ^ (25 - i % 2)

theorem value_eq (x : List Int) (h : x.length = 10) : value x = fval x := by
  obtain ⟨f0, f1, f2, f3, f4, f5, f6, f7, f8, f9, rfl⟩ := len10 h
  simp only [value, fval, dot, feW, List.range, List.range.loop, List.map_cons, List.map_nil, List.getD_cons_succ,
    List.getD_cons_zero, List.sum_cons, List.sum_nil]
  norm_num
  ring

theorem Bounded.bd {n : Nat} (hn : n ≤ 2) {x : List Int} (h : Bounded n x) : Bd (if n = 1 then 1 else 3) x := by
  obtain ⟨f0, f1, f2, f3, f4, f5, f6, f7, f8, f9, rfl⟩ := len10 h.size
  have b0 := h.bound 0 (by decide)
  have b1 := h.bound 1 (by decide)
  have b2 := h.bound 2 (by decide)
  have b3 := h.bound 3 (by decide)
  have b4 := h.bound 4 (by decide)
  have b5 := h.bound 5 (by decide)
  have b6 := h.bound 6 (by decide)
  have b7 := h.bound 7 (by decide)
  have b8 := h.bound 8 (by decide)
  have b9 := h.bound 9 (by decide)
  simp only [List.getD_cons_succ, List.getD_cons_zero, Int.abs_eq_natAbs, Nat.reduceMod, Nat.reduceSub] at b0 b1 b2 b3 b4 b5 b6 b7 b8 b9
  norm_num at b0 b1 b2 b3 b4 b5 b6 b7 b8 b9
  simp only [Int.abs_eq_natAbs] at b0 b1 b2 b3 b4 b5 b6 b7 b8 b9
  rw [Bd_iff]
  split
  · subst n
    refine ⟨?_, ?_, ?_, ?_, ?_, ?_, ?_, ?_, ?_, ?_⟩ <;> omega
  · refine ⟨?_, ?_, ?_, ?_, ?_, ?_, ?_, ?_, ?_, ?_⟩ <;> omega

theorem Bounded.bd1 {x : List Int} (h : Bounded 1 x) : Bd 1 x := h.bd (by decide)
theorem Bounded.bd3 {x : List Int} (h : Bounded 2 x) : Bd 3 x := h.bd (by decide)

theorem Bounded.of_bd {n : Nat} {x : List Int} (h : Bd n x) : Bounded n x := by
  refine ⟨h.length, ?_⟩
  obtain ⟨f0, f1, f2, f3, f4, f5, f6, f7, f8, f9, rfl⟩ := len10 h.length
  rw [Bd_iff] at h
  obtain ⟨b0, b1, b2, b3, b4, b5, b6, b7, b8, b9⟩ := h
  intro i hi
  match i, hi with
  | 0, _ | 1, _ | 2, _ | 3, _ | 4, _ | 5, _ | 6, _ | 7, _ | 8, _ | 9, _ =>
    simp only [List.getD_cons_succ, List.getD_cons_zero, Int.abs_eq_natAbs, Nat.reduceMod, Nat.reduceSub]
    norm_num
    simp only [Int.abs_eq_natAbs]
    omega

theorem modEq_of_dvd {a b : Int} (h : (fieldP : Int) ∣ a - b) : a ≡ b [ZMOD P] := by
  rw [P_eq] at h
  exact (Int.modEq_iff_dvd.2 h).symm

/-! ### C39 -/

/-- **C39** (`FeAdd`). -/
theorem C39_add (f g : List Int) (hf : Bounded 1 f) (hg : Bounded 1 g) :
    Bounded 2 (FeAdd f g) ∧ value (FeAdd f g) = value f + value g := by
  obtain ⟨b, v⟩ := FeAdd_spec hf.bd1 hg.bd1 (by decide)
  exact ⟨.of_bd b, by rw [value_eq _ b.length, value_eq _ hf.size, value_eq _ hg.size, v]⟩

/-- **C39** (`FeSub`). -/
theorem C39_sub (f g : List Int) (hf : Bounded 1 f) (hg : Bounded 1 g) :
    Bounded 2 (FeSub f g) ∧ value (FeSub f g) = value f - value g := by
  obtain ⟨b, v⟩ := FeSub_spec hf.bd1 hg.bd1 (by decide)
  exact ⟨.of_bd b, by rw [value_eq _ b.length, value_eq _ hf.size, value_eq _ hg.size, v]⟩

/-- **C39** (`FeNeg`). -/
theorem C39_neg (f : List Int) (hf : Bounded 1 f) : Bounded 1 (FeNeg f) ∧ value (FeNeg f) = -value f := by
  obtain ⟨b, v⟩ := FeNeg_spec hf.bd1 (by decide)
  exact ⟨.of_bd b, by rw [value_eq _ b.length, value_eq _ hf.size, v]⟩

/-- **C39** (`FeMul`). The arguments may be results of additions and subtractions; the result is again within the tightest bounds. -/
theorem C39_mul (f g : List Int) (hf : Bounded 2 f) (hg : Bounded 2 g) :
    Bounded 1 (FeMul f g) ∧ value (FeMul f g) ≡ value f * value g [ZMOD P] := by
  obtain ⟨b, v⟩ := FeMul_spec hf.bd3 hg.bd3
  exact ⟨.of_bd b, by rw [value_eq _ b.length, value_eq _ hf.size, value_eq _ hg.size]; exact modEq_of_dvd v⟩

/-- **C39** (`FeSquare`). -/
theorem C39_square (f : List Int) (hf : Bounded 2 f) :
    Bounded 1 (FeSquare f) ∧ value (FeSquare f) ≡ value f ^ 2 [ZMOD P] := by
  obtain ⟨b, v⟩ := FeSquare_spec hf.bd3
  exact ⟨.of_bd b, by rw [value_eq _ b.length, value_eq _ hf.size, sq]; exact modEq_of_dvd v⟩

theorem sq2Out_bound {x : List Int} (h : Within sq2Out x) (i : Nat) (hi : i < 10) : 100 * |x.getD i 0| ≤ 101 * 2 ^ (25 - i % 2) := by
  have lu := h.get i
  change Iv.mem (x.getD i 0) _ at lu
  generalize x.getD i 0 = y at *
  rw [Int.abs_eq_natAbs]
  match i, hi with
  | 0, _ | 1, _ | 2, _ | 3, _ | 4, _ | 5, _ | 6, _ | 7, _ | 8, _ | 9, _ =>
    simp only [sq2Out, bget, Iv.mem, List.getD_cons_succ, List.getD_cons_zero, Nat.reduceMod, Nat.reduceSub, Int.reducePow,
      Int.reduceMul] at lu ⊢
    omega

/-- **C39** (`FeSquare2`). Its comment allows arguments up to `1.65*2^26, 1.65*2^25, ...` and promises `1.01*2^25, 1.01*2^24, ...` -/
theorem C39_square2 (f : List Int) (hf : Bounded 3 f) :
    (FeSquare2 f).length = 10 ∧ (∀ i, i < 10 → 100 * |(FeSquare2 f).getD i 0| ≤ 101 * 2 ^ (25 - i % 2)) ∧
      value (FeSquare2 f) ≡ 2 * value f ^ 2 [ZMOD P] := by
  have h : AbsLe sq2B f := by
    refine ⟨hf.size, fun i hi => ?_⟩
    have hb := hf.bound i (hf.size ▸ hi)
    rw [hf.size] at hi
    rw [Int.abs_eq_natAbs] at hb
    change 10 * ((lget f i).natAbs : Int) ≤ _ at hb
    match i, hi with
    | 0, _ | 1, _ | 2, _ | 3, _ | 4, _ | 5, _ | 6, _ | 7, _ | 8, _ | 9, _ =>
      simp only [sq2B, List.getD_cons_succ, List.getD_cons_zero, Nat.reduceMod, Nat.reduceSub, Nat.cast_ofNat, Int.reducePow,
        Int.reduceMul] at *
      omega
  obtain ⟨b, v⟩ := FeSquare2_spec' h
  have hl : (FeSquare2 f).length = 10 := b.1
  refine ⟨hl, fun i hi => ?_, ?_⟩
  · exact sq2Out_bound b i hi
  · rw [value_eq _ hl, value_eq _ hf.size, sq]; exact modEq_of_dvd v

theorem modEq_of_cast {a b : Int} (h : (a : F) = (b : F)) : a ≡ b [ZMOD P] := by
  have := (ZMod.intCast_eq_intCast_iff a b fieldP).1 h
  rwa [P_eq] at this

theorem cast_eq_zero {a : Int} : (a : F) = 0 ↔ (P : Int) ∣ a := by
  rw [ZMod.intCast_zmod_eq_zero_iff_dvd, P_eq]

/-- **C39** (`FeInvert`). The result is the inverse, and zero for zero. -/
theorem C39_invert (f : List Int) (hf : Bounded 2 f) : Bounded 1 (FeInvert f) ∧
    (¬ (P : Int) ∣ value f → value f * value (FeInvert f) ≡ 1 [ZMOD P]) ∧ ((P : Int) ∣ value f → (P : Int) ∣ value (FeInvert f)) := by
  have b := FeInvert_bd hf.bd3
  have e := fz_invert hf.bd3
  rw [value_eq _ b.length, value_eq _ hf.size]
  refine ⟨.of_bd b, fun h => ?_, fun h => ?_⟩
  · have hz : fz f ≠ 0 := fun h0 => h (cast_eq_zero.1 h0)
    refine modEq_of_cast ?_
    rw [Int.cast_mul, Int.cast_one]
    exact (congrArg (fz f * ·) e).trans (mul_inv_cancel₀ hz)
  · have hz : fz f = 0 := cast_eq_zero.2 h
    rw [hz, inv_zero] at e
    exact cast_eq_zero.1 e

/-- Limbs at the extremes of the documented bounds. -/
def extreme : List Int := [36909875, -18454937, 36909875, -18454937, 36909875, -18454937, 36909875, -18454937, 36909875, -18454937]

theorem extreme_bounded : Bounded 1 extreme := ⟨rfl, by decide +kernel⟩
theorem extreme_sum_bounded : Bounded 2 (FeAdd extreme extreme) := (C39_add _ _ extreme_bounded extreme_bounded).1

example : value (FeMul (FeAdd extreme extreme) (FeSub extreme extreme)) % P = 0 := by decide +kernel
example : value (FeAdd extreme extreme) * value (FeInvert (FeAdd extreme extreme)) ≡ 1 [ZMOD P] :=
  (C39_invert _ extreme_sum_bounded).2.1 (by decide +kernel)
/-- The limbs are as large as claimed: adding once more exceeds the bounds. -/
example : ¬ Bounded 2 (FeAdd (FeAdd extreme extreme) extreme) := fun h => absurd (h.bound 0 (by decide)) (by decide +kernel)

/-! ### C40 -/

/-- **C40** (`FeToBytes`). 32 bytes, the little-endian encoding of the representative in `[0, P)`; the argument, which the function
changes, still represents the same element. -/
theorem C40_toBytes (h : List Int) (hh : Bounded 2 h) :
    (FeToBytes h).1.length = 32 ∧ (leNat (FeToBytes h).1 : Int) = value h % P ∧
      Bounded 2 (FeToBytes h).2 ∧ value (FeToBytes h).2 ≡ value h [ZMOD P] := by
  obtain ⟨l, v, c, w⟩ := FeToBytes_spec hh.bd3
  have hv := value_eq _ hh.size
  refine ⟨l, ?_, .of_bd c.bd, ?_⟩
  · rw [v, hv, P_eq]
  · rw [value_eq _ c.1, hv, w, P_eq]
    exact Int.mod_modEq _ _

/-- **C40** (`FeFromBytes`). Every 32-byte string is read as the number of its lower 255 bits. -/
theorem C40_fromBytes (s : Bytes) (_h : s.length = 32) :
    Bounded 1 (FeFromBytes s) ∧ value (FeFromBytes s) ≡ (leNat s % 2 ^ 255 : Nat) [ZMOD P] := by
  obtain ⟨b, v⟩ := FeFromBytes_spec s
  exact ⟨.of_bd b, by rw [value_eq _ b.length]; exact modEq_of_dvd v⟩

/-- **C40** (equality of elements is equality of encodings). -/
theorem C40_canonical (f g : List Int) (hf : Bounded 2 f) (hg : Bounded 2 g) :
    (FeToBytes f).1 = (FeToBytes g).1 ↔ value f ≡ value g [ZMOD P] := by
  obtain ⟨lf, vf, _⟩ := C40_toBytes f hf
  obtain ⟨lg, vg, _⟩ := C40_toBytes g hg
  constructor
  · intro e
    rw [e, vg] at vf
    exact vf.symm
  · intro e
    have : (leNat (FeToBytes f).1 : Int) = leNat (FeToBytes g).1 := by rw [vf, vg]; exact e
    exact leNat_inj (lf.trans lg.symm) (by exact_mod_cast this)

/-- **C40** (round trip). Encodings of numbers below `P` are read and written back unchanged. -/
theorem C40_roundtrip (s : Bytes) (h : s.length = 32) (hs : leNat s < P) : (FeToBytes (FeFromBytes s)).1 = s := by
  obtain ⟨b, v⟩ := C40_fromBytes s h
  have b2 : Bounded 2 (FeFromBytes s) := ⟨b.size, fun i hi => Int.le_trans (b.bound i hi) (by
    have : (0 : Int) ≤ 2 ^ (25 - i % 2) := by positivity
    push_cast; omega)⟩
  obtain ⟨l, e, _⟩ := C40_toBytes _ b2
  have hm : leNat s % 2 ^ 255 = leNat s := Nat.mod_eq_of_lt (Nat.lt_trans hs (by decide +kernel))
  rw [hm] at v
  refine leNat_inj (l.trans h.symm) ?_
  have : (leNat (FeToBytes (FeFromBytes s)).1 : Int) = leNat s := by
    rw [e, show value (FeFromBytes s) % (P : Int) = _ from v]
    exact Int.emod_eq_of_lt (Int.natCast_nonneg _) (Int.ofNat_lt.2 hs)
  exact_mod_cast this

/-- **C40** (`FeIsNegative`, `FeIsNonZero`). The parity of the representative, and whether it is not zero. -/
theorem C40_predicates (f : List Int) (hf : Bounded 2 f) :
    ((FeIsNegative f).1.toNat : Int) = value f % P % 2 ∧ (FeIsNonZero f).1 = if (P : Int) ∣ value f then 0 else 1 := by
  have hv := value_eq _ hf.size
  constructor
  · rw [isNegative_eq hf.bd3, hv, ← P_eq, ← fz_val]; push_cast; rfl
  · rw [isNonZero_eq hf.bd3, hv]
    by_cases h : (P : Int) ∣ fval f
    · rw [if_pos h, if_pos (show fz f = 0 from cast_eq_zero.2 h)]
    · rw [if_neg h, if_neg (show ¬ fz f = 0 from fun e => h (cast_eq_zero.1 e))]

/-- Representatives at the boundary: `P` is written as `0`, `P - 1` as itself, and `2^255 - 1` is read as `18`. -/
example : (FeToBytes (FeFromBytes (leBytes 32 P))).1 = List.replicate 32 0 ∧
    (FeToBytes (FeFromBytes (leBytes 32 (P - 1)))).1 = leBytes 32 (P - 1) ∧
    (FeToBytes (FeFromBytes (List.replicate 32 0xff))).1 = leBytes 32 18 := by decide +kernel
example : (leNat (FeToBytes (FeAdd extreme extreme)).1 : Int) = value (FeAdd extreme extreme) % P :=
  (C40_toBytes _ extreme_sum_bounded).2.1

end Cardano.Props
