import Verif.Bech32.Model
/-! # Algebra of `polymod`: helper lemmas (no property statements here) -/
set_option autoImplicit false

namespace Cardano.Bech32

theorem goShr32_xor (a b : UInt32) (i : Nat) : goShr32 (a ^^^ b) i = goShr32 a i ^^^ goShr32 b i := by
  unfold goShr32; split
  · exact UInt32.shiftRight_xor
  · simp

theorem goShl32_xor (a b : UInt32) (i : Nat) : goShl32 (a ^^^ b) i = goShl32 a i ^^^ goShl32 b i := by
  unfold goShl32; split
  · exact UInt32.shiftLeft_xor
  · simp

theorem and_xor_distrib (a b m : UInt32) : (a ^^^ b) &&& m = (a &&& m) ^^^ (b &&& m) := by
  apply UInt32.toBitVec_inj.1
  simp only [UInt32.toBitVec_and, UInt32.toBitVec_xor]
  ext i; simp [BitVec.getElem_and]; cases a.toBitVec[i] <;> cases b.toBitVec[i] <;> simp

theorem and_one_cases (a : UInt32) : a &&& 1 = 0 ∨ a &&& 1 = 1 := by
  have h : (a &&& 1).toNat = a.toNat % 2 := by
    rw [UInt32.toNat_and]; exact Nat.and_two_pow_sub_one_eq_mod _ 1
  rcases Nat.mod_two_eq_zero_or_one a.toNat with h2 | h2
  · left; apply UInt32.toNat_inj.1; rw [h, h2]; rfl
  · right; apply UInt32.toNat_inj.1; rw [h, h2]; rfl

theorem xorGen_acc (t : UInt32) (gs : List UInt32) : ∀ (i : Nat) (c : UInt32),
    xorGen t i gs c = c ^^^ xorGen t i gs 0 := by
  induction gs with
  | nil => intro i c; simp [xorGen]
  | cons g gs ih =>
    intro i c
    simp only [xorGen]
    split
    · rw [ih (i+1) (c ^^^ g), ih (i+1) (0 ^^^ g)]; simp [UInt32.xor_assoc]
    · rw [ih (i+1) c]

theorem xorGen_xor (a b : UInt32) (gs : List UInt32) : ∀ (i : Nat),
    xorGen (a ^^^ b) i gs 0 = xorGen a i gs 0 ^^^ xorGen b i gs 0 := by
  induction gs with
  | nil => intro i; simp [xorGen]
  | cons g gs ih =>
    intro i
    simp only [xorGen]
    rw [goShr32_xor, and_xor_distrib]
    have e1 := xorGen_acc (a ^^^ b) gs (i+1) g
    have e2 := xorGen_acc a gs (i+1) g
    have e3 := xorGen_acc b gs (i+1) g
    have e0 := ih (i+1)
    rcases and_one_cases (goShr32 a i) with ha | ha <;> rcases and_one_cases (goShr32 b i) with hb | hb <;>
      simp only [ha, hb] <;> simp [e0, e1, e2, e3, UInt32.xor_assoc]
    · rw [← UInt32.xor_assoc, ← UInt32.xor_assoc, UInt32.xor_comm g]
    · have e : g ^^^ (xorGen a (i + 1) gs 0 ^^^ (g ^^^ xorGen b (i + 1) gs 0)) =
          (g ^^^ g) ^^^ (xorGen a (i + 1) gs 0 ^^^ xorGen b (i + 1) gs 0) := by ac_rfl
      rw [e]; simp

/-- The linear part of a polymod step. -/
def lin (c : UInt32) : UInt32 := polymodStep c 0

theorem step_eq (c : UInt32) (v : UInt8) : polymodStep c v = lin c ^^^ v.toUInt32 := by
  unfold lin polymodStep
  simp only []
  rw [xorGen_acc, xorGen_acc _ _ _ (_ ^^^ UInt8.toUInt32 0)]
  simp; ac_rfl

theorem lin_xor (a b : UInt32) : lin (a ^^^ b) = lin a ^^^ lin b := by
  unfold lin polymodStep
  simp only []
  rw [xorGen_acc, xorGen_acc _ _ _ (goShl32 (a &&& _) 5 ^^^ _), xorGen_acc _ _ _ (goShl32 (b &&& _) 5 ^^^ _)]
  rw [goShr32_xor, and_xor_distrib, goShl32_xor, xorGen_xor]
  simp; ac_rfl

theorem lin_zero : lin 0 = 0 := by decide

theorem step_xor (a b : UInt32) (u v : UInt8) :
    polymodStep (a ^^^ b) (u ^^^ v) = polymodStep a u ^^^ polymodStep b v := by
  rw [step_eq, step_eq, step_eq, lin_xor]
  simp; ac_rfl

/-- Pointwise xor of two symbol lists of equal length. -/
def xorList (a b : Bytes) : Bytes := List.zipWith (· ^^^ ·) a b

theorem foldl_xor (xs : Bytes) : ∀ (ys : Bytes) (a b : UInt32), xs.length = ys.length →
    (xorList xs ys).foldl polymodStep (a ^^^ b) = xs.foldl polymodStep a ^^^ ys.foldl polymodStep b := by
  induction xs with
  | nil => intro ys a b h; cases ys <;> simp_all [xorList]
  | cons x xs ih =>
    intro ys a b h
    cases ys with
    | nil => simp at h
    | cons y ys =>
      simp only [xorList, List.zipWith_cons_cons, List.foldl_cons]
      rw [step_xor]
      exact ih ys _ _ (by simpa using h)

/-! ### Ranges -/

theorem xorGen_lt (t : UInt32) (gs : List UInt32) (h : ∀ g ∈ gs, g.toNat < 2^30) : ∀ (i : Nat) (c : UInt32),
    c.toNat < 2^30 → (xorGen t i gs c).toNat < 2^30 := by
  induction gs with
  | nil => intro i c hc; simpa [xorGen] using hc
  | cons g gs ih =>
    intro i c hc
    simp only [xorGen]
    apply ih (fun g hg => h g (List.mem_cons_of_mem _ hg))
    split
    · have hg := h g List.mem_cons_self
      rw [UInt32.toNat_xor]
      exact Nat.xor_lt_two_pow (n := 30) hc hg
    · exact hc

theorem lin_lt (c : UInt32) : (lin c).toNat < 2^30 := by
  unfold lin polymodStep
  apply xorGen_lt
  · decide
  · have h : (c &&& 0x1ffffff).toNat < 2^25 := by
      rw [UInt32.toNat_and]
      exact Nat.lt_of_le_of_lt Nat.and_le_right (by decide)
    simp only [UInt32.toNat_xor, goShl32_toNat]
    apply Nat.xor_lt_two_pow (n := 30)
    · rw [Nat.mod_eq_of_lt (by omega)]; omega
    · decide

theorem step_lt (c : UInt32) (v : UInt8) (h : v.toNat < 32) : (polymodStep c v).toNat < 2^30 := by
  rw [step_eq, UInt32.toNat_xor]
  refine Nat.xor_lt_two_pow (n := 30) (lin_lt c) ?_
  simp; omega

theorem foldl_lt (xs : Bytes) : ∀ (c : UInt32), c.toNat < 2^30 → (∀ x ∈ xs, x.toNat < 32) →
    (xs.foldl polymodStep c).toNat < 2^30 := by
  induction xs with
  | nil => intro c hc _; simpa using hc
  | cons x xs ih =>
    intro c hc h
    exact ih _ (step_lt c x (h x List.mem_cons_self)) fun y hy => h y (List.mem_cons_of_mem _ hy)

/-! ### Injectivity of the linear step on 30-bit values -/

theorem low_inj : ∀ t : Fin 32, (xorGen (UInt32.ofNat t.val) 0 generator 0) &&& 31 = 0 → t = 0 := by
  decide +kernel

theorem lin_eq_zero (c : UInt32) (hcn : c.toNat < 2^30) (h : lin c = 0) : c = 0 := by
  unfold lin polymodStep at h
  simp only [] at h
  rw [xorGen_acc] at h
  have ht : (goShr32 c 25).toNat < 32 := by rw [goShr32_toNat]; omega
  have e1 : goShr32 c 25 = UInt32.ofNat ((⟨(goShr32 c 25).toNat, ht⟩ : Fin 32).val) := by simp
  have hlow : (xorGen (goShr32 c 25) 0 generator 0) &&& 31 = 0 := by
    have h3 := congrArg (· &&& (31 : UInt32)) h
    simp only [and_xor_distrib] at h3
    have hz : goShl32 (c &&& 0x1ffffff) 5 &&& 31 = 0 := by
      apply UInt32.toNat_inj.1
      rw [UInt32.toNat_and, goShl32_toNat]
      have := Nat.and_two_pow_sub_one_eq_mod ((c &&& 0x1ffffff).toNat * 2 ^ 5 % 2 ^ 32) 5
      have e : (31 : UInt32).toNat = 2^5 - 1 := rfl
      rw [e, this]
      have e0 : (0 : UInt32).toNat = 0 := rfl
      rw [e0]; omega
    rw [hz] at h3
    simpa using h3
  rw [e1] at hlow
  have h0 := low_inj _ hlow
  have htop : (goShr32 c 25).toNat = 0 := by simpa using congrArg Fin.val h0
  have htop' : goShr32 c 25 = 0 := by apply UInt32.toNat_inj.1; rw [htop]; rfl
  rw [htop'] at h
  have hg0 : xorGen 0 0 generator 0 = 0 := by decide
  rw [hg0] at h
  rw [goShr32_toNat] at htop
  have h4 : (goShl32 (c &&& 0x1ffffff) 5).toNat = 0 := by
    have := congrArg UInt32.toNat h
    simpa using this
  rw [goShl32_toNat, UInt32.toNat_and] at h4
  have e : (0x1ffffff : UInt32).toNat = 2^25 - 1 := rfl
  rw [e, Nat.and_two_pow_sub_one_eq_mod] at h4
  apply UInt32.toNat_inj.1
  have : c.toNat = 0 := by omega
  rw [this]; rfl

/-- Appending zero symbols to the zero-start fold applies `lin` repeatedly. -/
def linPow : Nat → UInt32 → UInt32
  | 0, c => c
  | n + 1, c => linPow n (lin c)

theorem linPow_xor (n : Nat) : ∀ a b, linPow n (a ^^^ b) = linPow n a ^^^ linPow n b := by
  induction n with
  | zero => intro a b; rfl
  | succ n ih => intro a b; simp only [linPow]; rw [lin_xor, ih]

theorem foldl_replicate (n : Nat) : ∀ c, (List.replicate n (0 : UInt8)).foldl polymodStep c = linPow n c := by
  induction n with
  | zero => intro c; rfl
  | succ n ih => intro c; simp only [List.replicate_succ, List.foldl_cons, linPow]; exact ih _

theorem linPow_lt (n : Nat) : ∀ c : UInt32, c.toNat < 2^30 → (linPow n c).toNat < 2^30 := by
  induction n with
  | zero => intro c h; exact h
  | succ n ih => intro c _; exact ih _ (lin_lt c)

theorem linPow_eq_zero (n : Nat) : ∀ c : UInt32, c.toNat < 2^30 → linPow n c = 0 → c = 0 := by
  induction n with
  | zero => intro c _ h; exact h
  | succ n ih => intro c hc h; exact lin_eq_zero c hc (ih _ (lin_lt c) h)

/-! ### Six trailing symbols -/

/-- Six 5-bit symbols packed big-endian in a 30-bit word. -/
def pack6 (a b c d e f : UInt8) : Nat :=
  ((((a.toNat * 32 + b.toNat) * 32 + c.toNat) * 32 + d.toNat) * 32 + e.toNat) * 32 + f.toNat

theorem lin_small (c : UInt32) (h : c.toNat < 2^25) : (lin c).toNat = c.toNat * 32 := by
  unfold lin polymodStep
  simp only []
  rw [xorGen_acc]
  have htop' : goShr32 c 25 = 0 := by
    apply UInt32.toNat_inj.1; rw [goShr32_toNat]
    have e0 : (0 : UInt32).toNat = 0 := rfl
    rw [e0]; omega
  rw [htop']
  have hg0 : xorGen 0 0 generator 0 = 0 := by decide
  rw [hg0]
  have z8 : UInt8.toUInt32 0 = 0 := rfl
  simp only [UInt32.xor_zero, z8]
  rw [goShl32_toNat, UInt32.toNat_and]
  have e : (0x1ffffff : UInt32).toNat = 2^25 - 1 := rfl
  rw [e, Nat.and_two_pow_sub_one_eq_mod]
  omega

theorem step_small (c : UInt32) (v : UInt8) (h : c.toNat < 2^25) (hv : v.toNat < 32) :
    (polymodStep c v).toNat = c.toNat * 32 + v.toNat := by
  rw [step_eq, UInt32.toNat_xor, lin_small c h]
  have hv' : v.toUInt32.toNat = v.toNat := by simp
  rw [hv']
  have := Nat.two_pow_add_eq_or_of_lt (i := 5) (b := v.toNat) (by omega) c.toNat
  have h2 : (c.toNat * 32) ^^^ v.toNat = c.toNat * 32 + v.toNat := by
    rw [Nat.mul_comm c.toNat 32]
    rw [show (32:Nat) = 2^5 from rfl, this]
    apply Nat.eq_of_testBit_eq
    intro i
    rw [Nat.testBit_xor, Nat.testBit_or]
    rw [Nat.testBit_two_pow_mul]
    by_cases hi : i ≥ 5
    · have : v.toNat.testBit i = false :=
        Nat.testBit_lt_two_pow (Nat.lt_of_lt_of_le hv (Nat.pow_le_pow_right (by omega : 2 > 0) hi))
      simp [this]
    · simp [hi]
  exact h2

theorem fold6_zero (a b c d e f : UInt8) (ha : a.toNat < 32) (hb : b.toNat < 32) (hc : c.toNat < 32)
    (hd : d.toNat < 32) (he : e.toNat < 32) (hf : f.toNat < 32) :
    ([a,b,c,d,e,f].foldl polymodStep 0).toNat = pack6 a b c d e f := by
  simp only [List.foldl_cons, List.foldl_nil]
  have e0 : (0 : UInt32).toNat = 0 := rfl
  have s1 := step_small 0 a (by simp) ha
  have s2 := step_small _ b (by rw [s1, e0]; omega) hb
  have s3 := step_small _ c (by rw [s2, s1, e0]; omega) hc
  have s4 := step_small _ d (by rw [s3, s2, s1, e0]; omega) hd
  have s5 := step_small _ e (by rw [s4, s3, s2, s1, e0]; omega) he
  have s6 := step_small _ f (by rw [s5, s4, s3, s2, s1, e0]; omega) hf
  rw [s6, s5, s4, s3, s2, s1, e0]
  unfold pack6; omega

end Cardano.Bech32
