import Verif.Ed25519.FieldBytes
import Verif.Ed25519.Primes
import Mathlib.FieldTheory.Finite.Basic
/-!
# The field arithmetic in `ZMod (2^255 - 19)`
-/
set_option autoImplicit false

namespace Cardano.Ed

theorem fieldP_prime : fieldP.Prime := by
  have h : fieldP = 57896044618658097711785492504343953926634992332820282019728792003956564819949 := by decide +kernel
  rw [h]; exact prime_p

instance : Fact fieldP.Prime := ⟨fieldP_prime⟩

/-- The field. -/
abbrev F := ZMod fieldP

/-- The field element represented by ten limbs. -/
def fz (x : FE) : F := ((fval x : Int) : F)

theorem cast_of_dvd {a b : Int} (h : (fieldP : Int) ∣ a - b) : (a : F) = (b : F) :=
  ((ZMod.intCast_eq_intCast_iff_dvd_sub b a fieldP).2 h).symm

theorem fz_add {m n : Nat} {a b : FE} (ha : Bd m a) (hb : Bd n b) (hmn : m + n ≤ 58) : fz (FeAdd a b) = fz a + fz b := by
  unfold fz; rw [(FeAdd_spec ha hb hmn).2, Int.cast_add]

theorem fz_sub {m n : Nat} {a b : FE} (ha : Bd m a) (hb : Bd n b) (hmn : m + n ≤ 58) : fz (FeSub a b) = fz a - fz b := by
  unfold fz; rw [(FeSub_spec ha hb hmn).2, Int.cast_sub]

theorem fz_neg {n : Nat} {a : FE} (ha : Bd n a) (hn : n ≤ 58) : fz (FeNeg a) = -fz a := by
  unfold fz; rw [(FeNeg_spec ha hn).2, Int.cast_neg]

theorem fz_mul {a b : FE} (ha : Bd 3 a) (hb : Bd 3 b) : fz (FeMul a b) = fz a * fz b := by
  unfold fz; rw [cast_of_dvd (FeMul_spec ha hb).2, Int.cast_mul]

theorem fz_sq {a : FE} (ha : Bd 3 a) : fz (FeSquare a) = fz a * fz a := by
  unfold fz; rw [cast_of_dvd (FeSquare_spec ha).2, Int.cast_mul]

theorem fz_sq2 {a : FE} (ha : Bd 3 a) : fz (FeSquare2 a) = 2 * (fz a * fz a) := by
  unfold fz; rw [cast_of_dvd (FeSquare2_spec ha).2]; push_cast; rfl

theorem zero_bd : Bd 0 FeZero := by
  unfold FeZero; rw [Bd_iff]; decide +kernel

theorem one_bd : Bd 1 FeOne := by
  unfold FeOne; rw [Bd_iff]; decide +kernel

theorem fz_zero : fz FeZero = 0 := by
  unfold fz; rw [show fval FeZero = 0 by decide +kernel, Int.cast_zero]

theorem fz_one : fz FeOne = 1 := by
  unfold fz; rw [show fval FeOne = 1 by decide +kernel, Int.cast_one]

theorem fz_fromBytes (s : Bytes) : fz (FeFromBytes s) = ((leNat s % 2 ^ 255 : Nat) : F) := by
  unfold fz; rw [cast_of_dvd (FeFromBytes_spec s).2, Int.cast_natCast]

/-! ## Serialisation and the predicates -/

theorem fz_emod (x : FE) : ((fval x % fieldP : Int) : F) = fz x := by
  unfold fz
  refine (cast_of_dvd ?_).symm
  have := Int.mul_ediv_add_emod (fval x) fieldP
  exact ⟨fval x / fieldP, by omega⟩

theorem fz_val (x : FE) : ((fz x).val : Int) = fval x % fieldP := by
  rw [fz, ZMod.val_intCast]

theorem toBytes_val {x : FE} (h : Bd 3 x) : leNat (FeToBytes x).1 = (fz x).val := by
  have := (FeToBytes_spec h).2.1
  rw [← fz_val] at this
  exact_mod_cast this

theorem toBytes_length {x : FE} (h : Bd 3 x) : (FeToBytes x).1.length = 32 := (FeToBytes_spec h).1

theorem toBytes_bd {x : FE} (h : Bd 3 x) : Bd 2 (FeToBytes x).2 := (FeToBytes_spec h).2.2.1.bd

theorem toBytes_fz {x : FE} (h : Bd 3 x) : fz (FeToBytes x).2 = fz x := by
  rw [fz, (FeToBytes_spec h).2.2.2, fz_emod]

theorem headD_odd : ∀ (s : Bytes), s ≠ [] → (s.headD 0 &&& 1).toNat = leNat s % 2
  | [], h => absurd rfl h
  | b :: s, _ => by
    simp only [List.headD_cons, leNat, UInt8.toNat_and]
    rw [show (1 : UInt8).toNat = 1 from rfl, Nat.and_one_is_mod]
    omega

theorem isNegative_eq {x : FE} (h : Bd 3 x) : (FeIsNegative x).1.toNat = (fz x).val % 2 := by
  unfold FeIsNegative
  dsimp only
  rw [headD_odd _ (by intro e; have := toBytes_length h; rw [e] at this; cases this), toBytes_val h]

theorem isNegative_bd {x : FE} (h : Bd 3 x) : Bd 2 (FeIsNegative x).2 := toBytes_bd h

theorem isNegative_fz {x : FE} (h : Bd 3 x) : fz (FeIsNegative x).2 = fz x := toBytes_fz h

theorem foldOr_zero : ∀ (s : Bytes) (x : UInt8), s.foldl (fun x b => x ||| b) x = 0 ↔ x = 0 ∧ leNat s = 0
  | [], x => by simp [leNat]
  | b :: s, x => by
    rw [List.foldl_cons, foldOr_zero s, leNat]
    have : x ||| b = 0 ↔ x = 0 ∧ b = 0 := by
      constructor
      · intro h
        have h := congrArg UInt8.toNat h
        rw [UInt8.toNat_or] at h
        have h := Nat.or_eq_zero_iff.1 h
        exact ⟨UInt8.toNat_inj.1 h.1, UInt8.toNat_inj.1 h.2⟩
      · rintro ⟨rfl, rfl⟩; rfl
    rw [this]
    have : b = 0 ↔ b.toNat = 0 := ⟨fun h => by rw [h]; rfl, fun h => UInt8.toNat_inj.1 h⟩
    rw [this]
    constructor
    · rintro ⟨⟨a, b⟩, c⟩; exact ⟨a, by omega⟩
    · rintro ⟨a, b⟩; exact ⟨⟨a, by omega⟩, by omega⟩

/-- Folding the bits of a byte to its lowest one. -/
theorem smear (x : UInt8) : (let y := x ||| goShr8 x 4; let y := y ||| goShr8 y 2; let y := y ||| goShr8 y 1; (y &&& 1).toNat)
    = if x = 0 then 0 else 1 := by
  revert x
  exact forall_byte (by decide +kernel)

theorem isNonZero_eq {x : FE} (h : Bd 3 x) : (FeIsNonZero x).1 = if fz x = 0 then 0 else 1 := by
  unfold FeIsNonZero
  dsimp only
  have h0 := foldOr_zero (FeToBytes x).1 0
  rw [toBytes_val h] at h0
  generalize (FeToBytes x).1.foldl (fun x b => x ||| b) (0 : UInt8) = y at *
  have hs := smear y
  dsimp only at hs
  rw [hs]
  have : y = 0 ↔ fz x = 0 := by rw [h0, ZMod.val_eq_zero]; simp
  by_cases hy : y = 0
  · rw [if_pos hy, if_pos (this.1 hy)]; rfl
  · rw [if_neg hy, if_neg (fun e => hy (this.2 e))]; rfl

/-! ## Powers -/

/-- `x` is within the documented bounds and represents the `e`-th power of `z`. -/
structure Pw (z : F) (e : Nat) (x : FE) : Prop where
  bd : Bd 1 x
  eq : fz x = z ^ e

theorem Pw.sq0 {z : FE} (h : Bd 3 z) : Pw (fz z) 2 (FeSquare z) := ⟨(FeSquare_spec h).1, by rw [fz_sq h, sq]⟩

theorem Pw.sq {z : F} {e : Nat} {x : FE} (h : Pw z e x) : Pw z (2 * e) (FeSquare x) :=
  ⟨(FeSquare_spec (h.bd.mono (by decide))).1, by rw [fz_sq (h.bd.mono (by decide)), h.eq, ← pow_add, two_mul]⟩

theorem Pw.mul {z : F} {d e : Nat} {x y : FE} (hx : Pw z d x) (hy : Pw z e y) : Pw z (d + e) (FeMul x y) :=
  ⟨(FeMul_spec (hx.bd.mono (by decide)) (hy.bd.mono (by decide))).1,
    by rw [fz_mul (hx.bd.mono (by decide)) (hy.bd.mono (by decide)), hx.eq, hy.eq, ← pow_add]⟩

theorem Pw.mulL {z x : FE} {e : Nat} (hx : Pw (fz z) e x) (h : Bd 3 z) : Pw (fz z) (1 + e) (FeMul z x) :=
  ⟨(FeMul_spec h (hx.bd.mono (by decide))).1, by rw [fz_mul h (hx.bd.mono (by decide)), hx.eq, pow_add, pow_one]⟩

theorem Pw.mulR {z x : FE} {e : Nat} (hx : Pw (fz z) e x) (h : Bd 3 z) : Pw (fz z) (e + 1) (FeMul x z) :=
  ⟨(FeMul_spec (hx.bd.mono (by decide)) h).1, by rw [fz_mul (hx.bd.mono (by decide)) h, hx.eq, pow_succ]⟩

theorem Pw.repeat {z : F} {x : FE} {e : Nat} (h : Pw z e x) : ∀ n : Nat, Pw z (e * 2 ^ n) (Nat.repeat FeSquare n x)
  | 0 => by simpa [Nat.repeat] using h
  | n + 1 => by
    have := (h.repeat n).sq
    rw [show e * 2 ^ (n + 1) = 2 * (e * 2 ^ n) by rw [pow_succ]; ring]
    exact this

theorem Pw.loop {z : F} {x : FE} {e : Nat} (h : Pw z e x) (n : Nat) : Pw z (e * 2 ^ n) (sqLoop (n + 1) x) := h.repeat n

theorem invert_pow {z : FE} (h : Bd 3 z) : Pw (fz z) (fieldP - 2) (FeInvert z) := by
  have p1 := Pw.sq0 h
  have p2 := p1.sq
  have p3 := p2.loop 1
  have p4 := p3.mulL h
  have p5 := p1.mul p4
  have p6 := p5.sq
  have p7 := p4.mul p6
  have p8 := p7.sq
  have p9 := p8.loop 4
  have p10 := p9.mul p7
  have p11 := p10.sq
  have p12 := p11.loop 9
  have p13 := p12.mul p10
  have p14 := p13.sq
  have p15 := p14.loop 19
  have p16 := p15.mul p13
  have p17 := p16.sq
  have p18 := p17.loop 9
  have p19 := p18.mul p10
  have p20 := p19.sq
  have p21 := p20.loop 49
  have p22 := p21.mul p19
  have p23 := p22.sq
  have p24 := p23.loop 99
  have p25 := p24.mul p22
  have p26 := p25.sq
  have p27 := p26.loop 49
  have p28 := p27.mul p19
  have p29 := p28.sq
  have p30 := p29.loop 4
  have p31 := p30.mul p5
  exact (show 57896044618658097711785492504343953926634992332820282019728792003956564819947 = fieldP - 2 by decide +kernel) ▸ p31

theorem FeInvert_bd {z : FE} (h : Bd 3 z) : Bd 1 (FeInvert z) := (invert_pow h).bd

theorem fz_invert {z : FE} (h : Bd 3 z) : fz (FeInvert z) = (fz z)⁻¹ := by
  rw [(invert_pow h).eq]
  by_cases h0 : fz z = 0
  · rw [h0, inv_zero]
    exact zero_pow (by decide +kernel)
  · rw [eq_comm, inv_eq_iff_eq_inv, eq_comm, inv_eq_of_mul_eq_one_left]
    rw [← pow_succ', show fieldP - 2 + 1 = fieldP - 1 by decide +kernel]
    exact ZMod.pow_card_sub_one_eq_one h0

theorem pow22523_pow {z : FE} (h : Bd 3 z) : Pw (fz z) ((fieldP - 5) / 8) (fePow22523 z) := by
  have p1 := Pw.sq0 h
  have p2 := p1.loop 0
  have p3 := p2.sq
  have p4 := p3.loop 1
  have p5 := p4.mulL h
  have p6 := p2.mul p5
  have p7 := p6.sq
  have p8 := p7.loop 0
  have p9 := p5.mul p8
  have p10 := p9.sq
  have p11 := p10.loop 4
  have p12 := p11.mul p9
  have p13 := p12.sq
  have p14 := p13.loop 9
  have p15 := p14.mul p12
  have p16 := p15.sq
  have p17 := p16.loop 19
  have p18 := p17.mul p15
  have p19 := p18.sq
  have p20 := p19.loop 9
  have p21 := p20.mul p12
  have p22 := p21.sq
  have p23 := p22.loop 49
  have p24 := p23.mul p21
  have p25 := p24.sq
  have p26 := p25.loop 99
  have p27 := p26.mul p24
  have p28 := p27.sq
  have p29 := p28.loop 49
  have p30 := p29.mul p21
  have p31 := p30.sq
  have p32 := p31.loop 1
  have p33 := p32.mulR h
  exact (show 7237005577332262213973186563042994240829374041602535252466099000494570602493 = (fieldP - 5) / 8 by decide +kernel) ▸ p33

end Cardano.Ed
