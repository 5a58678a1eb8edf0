import Verif.Ed25519.GroupProof
import Verif.Ed25519.Tables
import Verif.Ed25519.ScalarProof
import Mathlib.GroupTheory.OrderOfElement
/-!
# The precomputed tables are correct

The table entries are compared, in the kernel, with multiples of the base point computed in projective coordinates by `nadd`, which is
proved to compute the group law.
-/
set_option autoImplicit false

namespace Cardano.Ed
open Curve

/-! ## Projective arithmetic on natural numbers -/

structure NP where
  X : Nat
  Y : Nat
  Z : Nat

structure NRep (q : NP) (P : Pt) : Prop where
  z : (q.Z : F) ≠ 0
  x : (q.X : F) = P.x * q.Z
  y : (q.Y : F) = P.y * q.Z

/-- Projective addition; the last products are reduced modulo the prime. -/
def nadd (p q : NP) : NP :=
  let A := p.Z * q.Z % fieldP
  let B := A * A % fieldP
  let C := p.X * q.X % fieldP
  let D := p.Y * q.Y % fieldP
  let E := dN * C % fieldP * D % fieldP
  let F := (B + (fieldP - E)) % fieldP
  let G := (B + E) % fieldP
  ⟨A * F % fieldP * ((p.X * q.Y + q.X * p.Y) % fieldP) % fieldP, A * G % fieldP * ((C + D) % fieldP) % fieldP, F * G % fieldP⟩

theorem cast_mod (a : Nat) : ((a % fieldP : Nat) : F) = (a : F) := ZMod.natCast_mod a fieldP

theorem cast_sub_mod (a : Nat) (h : a < fieldP) : ((fieldP - a : Nat) : F) = -(a : F) := by
  rw [Nat.cast_sub (Nat.le_of_lt h), ZMod.natCast_self, zero_sub]

theorem nadd_rep {p q : NP} {P Q : Pt} (hp : NRep p P) (hq : NRep q Q) : NRep (nadd p q) (P + Q) := by
  have den := Pt.den P Q
  have ax := Pt.add_x_mul P Q
  have ay := Pt.add_y_mul P Q
  have hE : ∀ n : Nat, n % fieldP < fieldP := fun n => Nat.mod_lt _ (by decide +kernel)
  have ez : ((nadd p q).Z : F) = ((p.Z : F) * q.Z) ^ 4 * (dm cd P.x P.y Q.x Q.y * dp cd P.x P.y Q.x Q.y) := by
    simp only [nadd]
    rw [cast_mod, Nat.cast_mul, cast_mod, cast_mod, Nat.cast_add, Nat.cast_add, cast_sub_mod _ (hE _)]
    simp only [cast_mod, Nat.cast_mul]
    rw [hp.x, hp.y, hq.x, hq.y]
    unfold dm dp cd
    ring
  refine ⟨?_, ?_, ?_⟩
  · rw [ez]
    exact mul_ne_zero (pow_ne_zero _ (mul_ne_zero hp.z hq.z)) (mul_ne_zero den.2 den.1)
  · rw [ez]
    simp only [nadd]
    rw [cast_mod, Nat.cast_mul, cast_mod, cast_mod, Nat.cast_mul, cast_mod, cast_mod, Nat.cast_add, Nat.cast_add, cast_sub_mod _ (hE _)]
    simp only [cast_mod, Nat.cast_mul]
    rw [hp.x, hp.y, hq.x, hq.y]
    have : (P + Q).x * (((p.Z : F) * q.Z) ^ 4 * (dm cd P.x P.y Q.x Q.y * dp cd P.x P.y Q.x Q.y))
        = ((p.Z : F) * q.Z) ^ 4 * dm cd P.x P.y Q.x Q.y * (P.x * Q.y + Q.x * P.y) := by rw [← ax]; ring
    rw [this]
    unfold dm cd
    ring
  · rw [ez]
    simp only [nadd]
    rw [cast_mod, Nat.cast_mul, cast_mod, cast_mod, Nat.cast_mul, cast_mod, cast_mod, Nat.cast_add, Nat.cast_add]
    simp only [cast_mod, Nat.cast_mul]
    rw [hp.x, hp.y, hq.x, hq.y]
    have : (P + Q).y * (((p.Z : F) * q.Z) ^ 4 * (dm cd P.x P.y Q.x Q.y * dp cd P.x P.y Q.x Q.y))
        = ((p.Z : F) * q.Z) ^ 4 * dp cd P.x P.y Q.x Q.y * (P.y * Q.y + P.x * Q.x) := by rw [← ay]; ring
    rw [this]
    unfold dp cd
    ring

/-- Double-and-add. -/
def nmul (q : NP) : Nat → Nat → NP
  | 0, _ => ⟨0, 1, 1⟩
  | fuel + 1, n =>
    let r := nmul (nadd q q) fuel (n / 2)
    if n % 2 = 1 then nadd r q else r

theorem zero_nrep : NRep ⟨0, 1, 1⟩ 0 := ⟨by simp, by simp, by simp⟩

theorem nmul_rep : ∀ (fuel n : Nat) {q : NP} {P : Pt}, NRep q P → n < 2 ^ fuel → NRep (nmul q fuel n) (n • P)
  | 0, n, q, P, _, h => by
    have : n = 0 := by simpa using h
    subst this
    rw [zero_nsmul]; exact zero_nrep
  | fuel + 1, n, q, P, hq, h => by
    have ih := nmul_rep fuel (n / 2) (nadd_rep hq hq) (by rw [pow_succ] at h; omega)
    rw [← two_nsmul, ← mul_nsmul'] at ih
    simp only [nmul]
    split
    · have e : n = n / 2 * 2 + 1 := by omega
      conv => rw [e, add_nsmul, one_nsmul]
      rename_i h1
      have := nadd_rep ih hq
      rwa [show n / 2 * 2 + 1 = n by omega]
    · have e : n / 2 * 2 = n := by omega
      rwa [e] at ih

/-! ## Checking entries -/

/-- The representative of a table entry. -/
def fnat (x : FE) : Nat := (fval x % fieldP).toNat

theorem fz_fnat (x : FE) : fz x = (fnat x : F) := by
  refine fz_of_mod ?_
  have : (0 : Int) ≤ fval x % fieldP := Int.emod_nonneg _ (by decide +kernel)
  rw [fnat, Int.toNat_of_nonneg this, Int.emod_emod_of_dvd _ (dvd_refl _)]

def bdOk (x : FE) : Bool := decide (x.length = 10) && (List.range 10).all fun i => decide ((lget x i).natAbs ≤ feB.getD i 0)

theorem bdOk_bd {x : FE} (h : bdOk x = true) : Bd 1 x := by
  simp only [bdOk, Bool.and_eq_true, decide_eq_true_eq, List.all_eq_true, List.mem_range] at h
  refine ⟨h.1, fun i hi => ?_⟩
  rw [h.1] at hi
  have := h.2 i hi
  rwa [show feB.map (1 * ·) = feB by decide]

def entryOk (e : PreComp) (q : NP) : Bool :=
  bdOk e.yPlusX && bdOk e.yMinusX && bdOk e.xy2d &&
  decide (fnat e.yPlusX * q.Z % fieldP = (q.Y + q.X) % fieldP) &&
  decide ((fnat e.yMinusX * q.Z + q.X) % fieldP = q.Y % fieldP) &&
  decide (fnat e.xy2d * q.Z % fieldP * q.Z % fieldP = 2 * dN * q.X % fieldP * q.Y % fieldP)

theorem entryOk_rep {e : PreComp} {q : NP} {P : Pt} (h : entryOk e q = true) (hq : NRep q P) : PreCompRep e P := by
  simp only [entryOk, Bool.and_eq_true, decide_eq_true_eq] at h
  obtain ⟨⟨⟨⟨⟨b1, b2⟩, b3⟩, e1⟩, e2⟩, e3⟩ := h
  have e1 := natCast_eq_of_mod e1
  have e2 := natCast_eq_of_mod e2
  have e3 : ((fnat e.xy2d * q.Z % fieldP * q.Z : Nat) : F) = ((2 * dN * q.X % fieldP * q.Y : Nat) : F) := natCast_eq_of_mod e3
  have hz := hq.z
  rw [Nat.cast_mul, Nat.cast_add, ← fz_fnat, hq.x, hq.y] at e1
  rw [Nat.cast_add, Nat.cast_mul, ← fz_fnat, hq.x, hq.y] at e2
  rw [Nat.cast_mul, Nat.cast_mul, cast_mod, cast_mod, Nat.cast_mul, Nat.cast_mul, Nat.cast_mul, ← fz_fnat, hq.x, hq.y] at e3
  refine ⟨bdOk_bd b1, bdOk_bd b2, bdOk_bd b3, mul_right_cancel₀ hz ?_, mul_right_cancel₀ hz ?_, mul_right_cancel₀ (mul_ne_zero hz hz) ?_⟩
  · linear_combination e1
  · linear_combination e2
  · unfold cd
    push_cast at e3
    linear_combination e3

/-- Entries `q, q + s, q + 2 s, ...` -/
def rowOk (s : NP) : List PreComp → NP → Bool
  | [], _ => true
  | e :: es, q => entryOk e q && rowOk s es (nadd q s)

theorem rowOk_rep {s : NP} {S : Pt} (hs : NRep s S) : ∀ (row : List PreComp) {q : NP} {P : Pt}, rowOk s row q = true → NRep q P →
    ∀ (j : Nat) (e : PreComp), row[j]? = some e → PreCompRep e (P + j • S)
  | [], _, _, _, _ => by intro j e h; simp at h
  | e :: es, q, P, h, hq => by
    simp only [rowOk, Bool.and_eq_true] at h
    intro j e' he
    cases j with
    | zero =>
      simp only [List.getElem?_cons_zero, Option.some.injEq] at he
      subst he
      rw [zero_nsmul, add_zero]
      exact entryOk_rep h.1 hq
    | succ j =>
      have := rowOk_rep hs es h.2 (nadd_rep hq hs) j e' (by simpa using he)
      rwa [add_assoc, add_comm S, ← succ_nsmul] at this

def dbl8 (q : NP) : NP :=
  let q := nadd q q
  let q := nadd q q
  let q := nadd q q
  let q := nadd q q
  let q := nadd q q
  let q := nadd q q
  let q := nadd q q
  nadd q q

theorem dbl8_rep {q : NP} {P : Pt} (h : NRep q P) : NRep (dbl8 q) (256 • P) := by
  have d : ∀ {q : NP} {P : Pt} {n m : Nat}, NRep q (n • P) → m = 2 * n → NRep (nadd q q) (m • P) := by
    intro q P n m h e
    have := nadd_rep h h
    rw [← add_nsmul] at this
    rwa [e, two_mul]
  have h0 : NRep q (1 • P) := by rwa [one_nsmul]
  have h1 := d h0 (m := 2) rfl
  have h2 := d h1 (m := 4) rfl
  have h3 := d h2 (m := 8) rfl
  have h4 := d h3 (m := 16) rfl
  have h5 := d h4 (m := 32) rfl
  have h6 := d h5 (m := 64) rfl
  have h7 := d h6 (m := 128) rfl
  exact d h7 (m := 256) rfl

def rowsOk : List (List PreComp) → NP → Bool
  | [], _ => true
  | r :: rs, q => decide (r.length = 8) && rowOk q r q && rowsOk rs (dbl8 q)

theorem rowsOk_rep : ∀ (rows : List (List PreComp)) {q : NP} {P : Pt}, rowsOk rows q = true → NRep q P →
    ∀ (i : Nat) (r : List PreComp), rows[i]? = some r → r.length = 8 ∧ ∀ (j : Nat) (e : PreComp), r[j]? = some e → PreCompRep e (((j + 1) * 256 ^ i) • P)
  | [], _, _, _, _ => by intro i r h; simp at h
  | r :: rs, q, P, h, hq => by
    simp only [rowsOk, Bool.and_eq_true, decide_eq_true_eq] at h
    intro i r' hr
    cases i with
    | zero =>
      simp only [List.getElem?_cons_zero, Option.some.injEq] at hr
      subst hr
      refine ⟨h.1.1, fun j e he => ?_⟩
      have := rowOk_rep hq r h.1.2 hq j e he
      rwa [add_comm, ← succ_nsmul, ← mul_one (j + 1), ← pow_zero 256] at this
    | succ i =>
      obtain ⟨a, b⟩ := rowsOk_rep rs h.2 (dbl8_rep hq) i r' (by simpa using hr)
      refine ⟨a, fun j e he => ?_⟩
      have := b j e he
      rwa [← mul_nsmul', mul_assoc, ← pow_succ] at this

/-! ## The base point -/

/-- Coordinates of the base point, RFC 8032, section 5.1. -/
def bX : Nat := 15112221349535400772501151409588531511454012693041857206046113283949847762202
def bY : Nat := 46316835694926478169428394003475163141307993866256225615783033603165251855960

theorem base_on : On cd (bX : F) (bY : F) := by
  have h : ((bY * bY : Nat) : F) = ((1 + bX * bX + dN * (bX * bX) * (bY * bY) : Nat) : F) := natCast_eq_of_mod (by decide +kernel)
  unfold On cd
  push_cast at h ⊢
  linear_combination h

/-- The base point. -/
def B : Pt := ⟨(bX : F), (bY : F), base_on⟩

def bN : NP := ⟨bX, bY, 1⟩

theorem bN_rep : NRep bN B := ⟨by simp [bN], by simp [bN, B], by simp [bN, B]⟩

set_option maxRecDepth 20000 in
theorem base_ok : rowsOk base bN = true := by decide +kernel

set_option maxRecDepth 20000 in
theorem bi_ok : rowOk (nadd bN bN) bi bN = true := by decide +kernel

theorem base_length : base.length = 32 := by decide

theorem base_rep {i j : Nat} {r : List PreComp} {e : PreComp} (hr : base[i]? = some r) (he : r[j]? = some e) :
    PreCompRep e (((j + 1) * 256 ^ i) • B) := (rowsOk_rep base base_ok bN_rep i r hr).2 j e he

theorem base_row {i : Nat} (hi : i < 32) : ∃ r, base[i]? = some r ∧ r.length = 8 := by
  have h : i < base.length := by rw [base_length]; exact hi
  exact ⟨base[i], List.getElem?_eq_getElem h, (rowsOk_rep base base_ok bN_rep i _ (List.getElem?_eq_getElem h)).1⟩

theorem bi_rep {j : Nat} {e : PreComp} (he : bi[j]? = some e) : PreCompRep e ((2 * j + 1) • B) := by
  have := rowOk_rep (nadd_rep bN_rep bN_rep) bi bi_ok bN_rep j e he
  rwa [← two_nsmul, ← mul_nsmul', add_comm, mul_comm j, ← succ_nsmul] at this

/-! ## The order of the base point -/

set_option maxRecDepth 20000 in
theorem base_order : groupOrder • B = 0 := by
  have h := nmul_rep 253 groupOrder bN_rep (by decide +kernel)
  have h1 : (nmul bN 253 groupOrder).X % fieldP = 0 % fieldP ∧ (nmul bN 253 groupOrder).Y % fieldP = (nmul bN 253 groupOrder).Z % fieldP := by
    decide +kernel
  have hx := natCast_eq_of_mod h1.1
  have hy := natCast_eq_of_mod h1.2
  have z := h.z
  have x := h.x
  have y := h.y
  rw [hx, Nat.cast_zero] at x
  rw [hy] at y
  refine Pt.ext ?_ ?_
  · exact (mul_eq_zero.1 x.symm).resolve_right z
  · exact mul_right_cancel₀ z (by rw [← y, Pt.zero_y, one_mul])

theorem B_ne : B ≠ 0 := by
  intro h
  have : (bX : F) = 0 := congrArg Pt.x h
  exact natCast_ne_zero (a := bX) (by decide +kernel) this

instance : Fact groupOrder.Prime := ⟨by
  rw [show groupOrder = 7237005577332262213973186563042994240857116359379907606001950938285454250989 by decide +kernel]
  exact prime_l⟩

theorem addOrder_B : addOrderOf B = groupOrder := addOrderOf_eq_prime base_order B_ne

/-- Multiples of the base point depend exactly on the scalar modulo the group order. -/
theorem nsmul_B_eq_iff (m n : Nat) : m • B = n • B ↔ m % groupOrder = n % groupOrder := by
  rw [nsmul_eq_nsmul_iff_modEq, addOrder_B]; rfl

end Cardano.Ed
