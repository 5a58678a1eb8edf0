import Verif.Bech32.Three
/-! # Four substituted characters

A difference of weight exactly four with zero syndromes has its four values determined up to a common factor: the `i`-th is proportional to
`A_i^(-24) / ∏ (A_i + A_j)`.  They are symbols, elements of GF(32), only if the logarithms of these values agree modulo 33.  This is refuted for every
four positions less than 99 apart, except two shapes.  Helper lemmas only. -/
set_option autoImplicit false

namespace Cardano.Bech32.BCH
open Cardano.Spec Polynomial

/-- `β^d + 1 = β^(Z d)`. -/
def Z (d : Nat) : Nat := lg (pw d ^^^ 1)

theorem lg_spec (n : Nat) : logOk n = true → ∀ v, 0 < v → v ≤ n → pw (lg v) = v ∧ lg v < 1023 := by
  induction n with
  | zero => intro _ v h1 h2; omega
  | succ n ih =>
    intro h v h1 h2
    simp only [logOk, Bool.and_eq_true, beq_iff_eq, Nat.blt_eq] at h
    by_cases e : v = n + 1
    · rw [e]; exact ⟨h.1.1, h.1.2⟩
    · exact ih h.2 v h1 (by omega)

theorem ev_lg (v : Nat) (h0 : v ≠ 0) (h : v < 1024) : ev v = β ^ lg v := by
  obtain ⟨h1, h2⟩ := lg_spec 1023 logOk_all v (by omega) (by omega)
  rw [← pw_spec _ h2, h1]

theorem zech (d : Nat) (h0 : 0 < d) (h : d < 1023) : β ^ d + 1 = β ^ Z d := by
  have hlt : pw d < 1024 := Nat.mod_lt _ (by decide)
  rw [← pw_spec d h, ← ev_one, ← ev_xor]
  refine ev_lg _ ?_ (Nat.xor_lt_two_pow (n := 10) hlt (by decide))
  intro e
  refine (powOk_spec 1022 powOk_all d (by omega)).2 h0 ?_
  have : pw d ^^^ 1 ^^^ 1 = pw d := by rw [Nat.xor_assoc, Nat.xor_self, Nat.xor_zero]
  rw [e] at this; simpa using this.symm

/-- The logarithm of `β^a + β^b`. -/
def ℓ (a b : Nat) : Nat := if a < b then a + Z (b - a) else b + Z (a - b)

theorem ℓ_spec (a b : Nat) (hab : a ≠ b) (ha : a < 1023) (hb : b < 1023) : β ^ a + β ^ b = β ^ ℓ a b := by
  unfold ℓ
  split
  · rw [pow_add, ← zech _ (by omega) (by omega), mul_add, ← pow_add, mul_one, add_comm]; congr 2; omega
  · rw [pow_add, ← zech _ (by omega) (by omega), mul_add, ← pow_add, mul_one]; congr 2; omega

theorem ℓ_symm (a b : Nat) : ℓ a b = ℓ b a := by
  unfold ℓ
  rcases Nat.lt_trichotomy a b with h | h | h
  · rw [if_pos h, if_neg (by omega)]
  · rw [h]
  · rw [if_neg (by omega), if_pos h]

theorem β_inj' (a b : Nat) (hab : a ≤ b) (h : β ^ a = β ^ b) : a % 33 = b % 33 := by
  have h1 : β ^ (b - a) = 1 := by
    have : β ^ a * β ^ (b - a) = β ^ a * 1 := by rw [← pow_add, mul_one, Nat.add_sub_cancel' hab, h]
    exact (β_unit a).mul_left_cancel this
  have h2 : β ^ ((b - a) % 1023) = 1 := by
    rw [← Nat.div_add_mod (b - a) 1023, pow_add, pow_mul, β_order, one_pow, one_mul] at h1
    exact h1
  have h3 : (b - a) % 1023 = 0 := by
    by_contra hc
    have := β_sub_unit ((b - a) % 1023) (by omega) (Nat.mod_lt _ (by decide))
    rw [h2] at this
    have e : (1 : R) + 1 = 0 := by linear_combination two0
    rw [e] at this
    exact not_isUnit_zero this
  omega

theorem β_inj (a b : Nat) (h : β ^ a = β ^ b) : a % 33 = b % 33 := by
  rcases Nat.le_total a b with hab | hab
  · exact β_inj' a b hab h
  · exact (β_inj' b a hab h.symm).symm

theorem emb_log_ok : ∀ v : Fin 32, v ≠ 0 → lg (φN 0 (UInt32.ofNat v.val) 30) % 33 = 0 := by decide +kernel

/-- The nonzero symbols are the powers of `β^33`. -/
theorem emb_pow (v : UInt8) (hv : v.toNat < 32) (h0 : v ≠ 0) : ∃ s, emb v = β ^ s ∧ s % 33 = 0 := by
  have hne : (⟨v.toNat, hv⟩ : Fin 32) ≠ 0 := by
    intro h
    apply h0
    apply UInt8.toNat_inj.1
    simpa using congrArg Fin.val h
  have e : UInt32.ofNat v.toNat = v.toUInt32 := by
    apply UInt32.toNat_inj.1
    have := UInt8.toNat_lt v
    rw [UInt32.toNat_ofNat', UInt8.toNat_toUInt32]
    omega
  have h1 := embN_ok _ hne
  have h2 := emb_log_ok _ hne
  simp only [e] at h1 h2
  refine ⟨_, ?_, h2⟩
  unfold emb
  rw [φ_eq]
  exact ev_lg _ h1 (φN_lt _ _ _)

/-- The logarithm, up to a common term, of the inverse of the value at `a` when the other three are at `b`, `c`, `d`. -/
def LL (a b c d : Nat) : Nat := 24 * a + ℓ a b + ℓ a c + ℓ a d

theorem rel (a b c d : Nat) (x y z w : UInt8) (hx : x.toNat < 32) (hy : y.toNat < 32) (x0 : x ≠ 0) (y0 : y ≠ 0)
    (ha : a < 1023) (hb : b < 1023) (hc : c < 1023) (hd : d < 1023) (ac : a ≠ c) (ad : a ≠ d) (bc : b ≠ c) (bd : b ≠ d)
    (S : ∀ j, j = 24 ∨ j = 25 ∨ j = 26 → emb x * β ^ (j * a) + emb y * β ^ (j * b) + emb z * β ^ (j * c) + emb w * β ^ (j * d) = 0) :
    LL a b c d % 33 = LL b a c d % 33 := by
  obtain ⟨s, es, hs⟩ := emb_pow x hx x0
  obtain ⟨t, et, ht⟩ := emb_pow y hy y0
  have s24 := S 24 (by simp)
  have s25 := S 25 (by simp)
  have s26 := S 26 (by simp)
  have p25 : ∀ n, β ^ (25 * n) = β ^ (24 * n) * β ^ n := fun n => by rw [← pow_add]; congr 1; ring
  have p26 : ∀ n, β ^ (26 * n) = β ^ (24 * n) * β ^ n * β ^ n := fun n => by rw [← pow_add, ← pow_add]; congr 1; ring
  simp only [p25, ← mul_assoc] at s25
  simp only [p26, ← mul_assoc] at s26
  have key : emb x * β ^ (24 * a) * (β ^ a + β ^ c) * (β ^ a + β ^ d) = emb y * β ^ (24 * b) * (β ^ b + β ^ c) * (β ^ b + β ^ d) := by
    generalize β ^ a = A at *
    generalize β ^ b = B at *
    generalize β ^ c = C at *
    generalize β ^ d = D at *
    generalize emb x * β ^ (24 * a) = X at *
    generalize emb y * β ^ (24 * b) = Y at *
    generalize emb z * β ^ (24 * c) = U at *
    generalize emb w * β ^ (24 * d) = V at *
    linear_combination s26 + (C + D) * s25 + C * D * s24 - (U * C * (C + D) + V * D * (C + D)) * two0 - Y * (B + C) * (B + D) * two0
  rw [ℓ_spec a c ac ha hc, ℓ_spec a d ad ha hd, ℓ_spec b c bc hb hc, ℓ_spec b d bd hb hd, es, et] at key
  simp only [← pow_add] at key
  have := β_inj _ _ key
  unfold LL
  rw [ℓ_symm b a]
  omega

/-- `Z d` modulo 33 for `0 < d < 99`, six bits each. -/
def zTab : Nat := 0x1174c45179715d60879079f50b38964551b5033d07c814a40071655f2d225810765d0c570c64665c7c42205954de48810500b8093147d318338241b3c44d654a69205e08b1493d654b580
def z (d : Nat) : Nat := (zTab >>> (6 * d)) % 64

def zOk : Nat → Bool
  | 0 => true
  | d + 1 => z (d + 1) == Z (d + 1) % 33 && zOk d
theorem zOk_all : zOk 98 = true := by decide +kernel
theorem z_spec (n : Nat) : zOk n = true → ∀ d, 0 < d → d ≤ n → z d = Z d % 33 := by
  induction n with
  | zero => intro _ d h1 h2; omega
  | succ n ih =>
    intro h d h1 h2
    simp only [zOk, Bool.and_eq_true, beq_iff_eq] at h
    by_cases e : d = n + 1
    · rw [e]; exact h.1
    · exact ih h.2 d h1 (by omega)

/-- The two exceptional shapes. -/
def Special (a b c : Nat) : Prop := (a = 14 ∧ b = 79 ∧ c = 89) ∨ (a = 30 ∧ b = 93 ∧ c = 96)
instance (a b c : Nat) : Decidable (Special a b c) := by unfold Special; infer_instance

/-- Positions `0 < a < b < c`: the logarithms differ at some place, or the shape is exceptional. -/
def good (a b c : Nat) : Bool :=
  !(Nat.beq ((z b + z c) % 33) ((26 * a + z (b - a) + z (c - a)) % 33)) ||
  !(Nat.beq ((z a + z c) % 33) ((25 * b + a + z (b - a) + z (c - b)) % 33)) ||
  !(Nat.beq ((z a + z b) % 33) ((24 * c + a + b + z (c - a) + z (c - b)) % 33)) ||
  decide (Special a b c)

def goodA (b c : Nat) : Nat → Bool
  | 0 => true
  | a + 1 => good (a + 1) b c && goodA b c a
def goodB (c : Nat) : Nat → Bool
  | 0 => true
  | b + 1 => goodA (b + 1) c b && goodB c b
def goodC : Nat → Bool
  | 0 => true
  | c + 1 => goodB (c + 1) c && goodC c

theorem goodC_all : goodC 98 = true := by decide +kernel

theorem goodA_spec (b c n : Nat) : goodA b c n = true → ∀ a, 0 < a → a ≤ n → good a b c = true := by
  induction n with
  | zero => intro _ d h1 h2; omega
  | succ n ih =>
    intro h d h1 h2
    simp only [goodA, Bool.and_eq_true] at h
    by_cases e : d = n + 1
    · rw [e]; exact h.1
    · exact ih h.2 d h1 (by omega)
theorem goodB_spec (c n : Nat) : goodB c n = true → ∀ a b, 0 < a → a < b → b ≤ n → good a b c = true := by
  induction n with
  | zero => intro _ a b h1 h2; omega
  | succ n ih =>
    intro h a b h1 h2 h3
    simp only [goodB, Bool.and_eq_true] at h
    by_cases e : b = n + 1
    · rw [e]; exact goodA_spec _ _ n h.1 a h1 (by omega)
    · exact ih h.2 a b h1 h2 (by omega)
theorem goodC_spec (n : Nat) : goodC n = true → ∀ a b c, 0 < a → a < b → b < c → c ≤ n → good a b c = true := by
  induction n with
  | zero => intro _ a b c h1 h2; omega
  | succ n ih =>
    intro h a b c h1 h2 h3 h4
    simp only [goodC, Bool.and_eq_true] at h
    by_cases e : c = n + 1
    · rw [e]; exact goodB_spec _ n h.1 a b h1 h2 (by omega)
    · exact ih h.2 a b c h1 h2 h3 (by omega)

theorem z98 (d : Nat) (h0 : 0 < d) (h : d < 99) : z d = Z d % 33 := z_spec 98 zOk_all d h0 (by omega)
theorem good98 (a b c : Nat) (h0 : 0 < a) (h1 : a < b) (h2 : b < c) (hc : c < 99) : good a b c = true :=
  goodC_spec 98 goodC_all a b c h0 h1 h2 (by omega)

theorem canc (T p q r s t L M : Nat) (hL : L = T + (p + q)) (hM : M = T + (r + s + t)) (h : L % 33 = M % 33) :
    (p % 33 + q % 33) % 33 = (r + s % 33 + t % 33) % 33 := by
  rw [hL, hM] at h
  have h : p + q ≡ r + s + t [MOD 33] := Nat.ModEq.add_left_cancel' T h
  exact ((Nat.mod_modEq p 33).add (Nat.mod_modEq q 33)).trans (h.trans
    (((Nat.ModEq.refl r).add (Nat.mod_modEq s 33).symm).add (Nat.mod_modEq t 33).symm))

attribute [local irreducible] z Z pw lg

/-- Four nonzero values at the exponents `d < d + a < d + b < d + c`. -/
theorem four_exp (d a b c : Nat) (h0 : 0 < a) (h1 : a < b) (h2 : b < c) (hc : c < 99) (hd : d + c < 1023) (x y u v : UInt8)
    (hx : x.toNat < 32) (hy : y.toNat < 32) (hu : u.toNat < 32) (hv : v.toNat < 32) (x0 : x ≠ 0) (y0 : y ≠ 0) (u0 : u ≠ 0) (v0 : v ≠ 0)
    (S : ∀ j, j = 24 ∨ j = 25 ∨ j = 26 →
      emb x * β ^ (j * d) + emb y * β ^ (j * (d + a)) + emb u * β ^ (j * (d + b)) + emb v * β ^ (j * (d + c)) = 0) : Special a b c := by
  have za := z98 a h0 (by omega)
  have zb := z98 b (by omega) (by omega)
  have zc := z98 c (by omega) (by omega)
  have zab := z98 (b - a) (by omega) (by omega)
  have zac := z98 (c - a) (by omega) (by omega)
  have zbc := z98 (c - b) (by omega) (by omega)
  have g := good98 a b c h0 h1 h2 hc
  have r1 := rel d (d + a) (d + b) (d + c) x y u v hx hy x0 y0 (by omega) (by omega) (by omega) (by omega) (by omega) (by omega) (by omega) (by omega) S
  have r2 := rel d (d + b) (d + a) (d + c) x u y v hx hu x0 u0 (by omega) (by omega) (by omega) (by omega) (by omega) (by omega) (by omega) (by omega)
    (fun j hj => by rw [← S j hj]; ring)
  have r3 := rel d (d + c) (d + a) (d + b) x v y u hx hv x0 v0 (by omega) (by omega) (by omega) (by omega) (by omega) (by omega) (by omega) (by omega)
    (fun j hj => by rw [← S j hj]; ring)
  have l : ∀ p q, p < q → ℓ (d + p) (d + q) = d + p + Z (q - p) ∧ ℓ (d + q) (d + p) = d + p + Z (q - p) := by
    intro p q hpq
    have : d + q - (d + p) = q - p := by omega
    have e : ℓ (d + p) (d + q) = d + p + Z (q - p) := by unfold ℓ; rw [if_pos (by omega), this]
    exact ⟨e, by rw [ℓ_symm]; exact e⟩
  have la := l 0 a h0
  have lb := l 0 b (by omega)
  have lc := l 0 c (by omega)
  have lab := l a b h1
  have lac := l a c (by omega)
  have lbc := l b c h2
  simp only [Nat.add_zero, Nat.sub_zero] at la lb lc
  unfold LL at r1 r2 r3
  simp only [la, lb, lc, lab, lac, lbc] at r1 r2 r3
  generalize Z a = Za at *
  generalize Z b = Zb at *
  generalize Z c = Zc at *
  generalize Z (b - a) = Zab at *
  generalize Z (c - a) = Zac at *
  generalize Z (c - b) = Zbc at *
  unfold good at g
  rw [za, zb, zc, zab, zac, zbc] at g
  have q1 := canc (27 * d + Za) Zb Zc (26 * a) Zab Zac _ _ (by ring) (by ring) r1
  have q2 := canc (27 * d + Zb) Za Zc (25 * b + a) Zab Zbc _ _ (by ring) (by ring) r2
  have q3 := canc (27 * d + Zc) Za Zb (24 * c + a + b) Zac Zbc _ _ (by ring) (by ring) r3
  rw [q1, q2, q3] at g
  simpa using g

/-- A difference that is nonzero exactly at four positions and has zero remainder has one of the two shapes, when it is shorter than 100. -/
theorem four_pos (e : Bytes) (he : ∀ x ∈ e, x.toNat < 32) (hn : e.length ≤ 99) (i k l m : Nat) (hik : i < k) (hkl : k < l) (hlm : l < m)
    (hm : m < e.length) (hout : ∀ p, p < e.length → p ≠ i → p ≠ k → p ≠ l → p ≠ m → e.getD p 0 = 0)
    (hi0 : e.getD i 0 ≠ 0) (hk0 : e.getD k 0 ≠ 0) (hl0 : e.getD l 0 ≠ 0) (hm0 : e.getD m 0 ≠ 0)
    (h : e.foldl polymodStep 0 = 0) : Special (m - l) (m - k) (m - i) := by
  have lt : ∀ p, p < e.length → (e.getD p 0).toNat < 32 := by
    intro p hp
    have : e.getD p 0 = e[p] := by simp [List.getD, hp]
    rw [this]; exact he _ (List.getElem_mem hp)
  have S : ∀ j, j = 24 ∨ j = 25 ∨ j = 26 → ∑ p ∈ Finset.range e.length, emb (e.getD p 0) * β ^ (j * (e.length - 1 - p)) = 0 := by
    intro j hj
    have := fold_φ j hj e he 0 (by decide)
    rw [h, φ_zero, mul_zero, zero_add] at this
    exact this.symm
  have S4 : ∀ j, j = 24 ∨ j = 25 ∨ j = 26 → emb (e.getD m 0) * β ^ (j * (e.length - 1 - m)) + emb (e.getD l 0) * β ^ (j * (e.length - 1 - m + (m - l))) +
      emb (e.getD k 0) * β ^ (j * (e.length - 1 - m + (m - k))) + emb (e.getD i 0) * β ^ (j * (e.length - 1 - m + (m - i))) = 0 := by
    intro j hj
    have hs := S j hj
    have hsub : ({m, l, k, i} : Finset Nat) ⊆ Finset.range e.length := by
      intro p hp
      simp only [Finset.mem_insert, Finset.mem_singleton] at hp
      rw [Finset.mem_range]; omega
    rw [← Finset.sum_subset hsub, Finset.sum_insert (by simp; omega), Finset.sum_insert (by simp; omega), Finset.sum_insert (by simp; omega),
      Finset.sum_singleton] at hs
    · have e1 : e.length - 1 - m + (m - l) = e.length - 1 - l := by omega
      have e2 : e.length - 1 - m + (m - k) = e.length - 1 - k := by omega
      have e3 : e.length - 1 - m + (m - i) = e.length - 1 - i := by omega
      rw [e1, e2, e3, ← hs]; ring
    · intro p hp hnot
      simp only [Finset.mem_insert, Finset.mem_singleton, not_or] at hnot
      rw [hout p (Finset.mem_range.1 hp) hnot.2.2.2 hnot.2.2.1 hnot.2.1 hnot.1, emb_zero, zero_mul]
  exact four_exp (e.length - 1 - m) (m - l) (m - k) (m - i) (by omega) (by omega) (by omega) (by omega) (by omega) _ _ _ _
    (lt m hm) (lt l (by omega)) (lt k (by omega)) (lt i (by omega)) hm0 hl0 hk0 hi0 S4

end Cardano.Bech32.BCH
