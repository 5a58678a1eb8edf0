import Verif.Bech32.Codec
/-! # Error detection: helper lemmas -/
set_option autoImplicit false

namespace Cardano.Bech32
open Cardano.Spec

/-- `lin` on natural numbers, for fast kernel evaluation. -/
def linN (c : Nat) : Nat :=
  let t := c >>> 25
  (((((((c &&& 0x1ffffff) <<< 5)
    ^^^ (bif t.testBit 0 then 0x3b6a57b2 else 0))
    ^^^ (bif t.testBit 1 then 0x26508e6d else 0))
    ^^^ (bif t.testBit 2 then 0x1ea119fa else 0))
    ^^^ (bif t.testBit 3 then 0x3d4233dd else 0))
    ^^^ (bif t.testBit 4 then 0x2a1462b3 else 0))

theorem goShr32_bit (t : UInt32) (i : Nat) : (goShr32 t i &&& 1 = 1) ↔ t.toNat.testBit i = true := by
  rw [← UInt32.toNat_inj, UInt32.toNat_and, goShr32_toNat]
  have e : (1 : UInt32).toNat = 2^1 - 1 := rfl
  rw [e, Nat.and_two_pow_sub_one_eq_mod, Nat.testBit_eq_decide_div_mod_eq]
  simp

theorem lin_toNat (c : UInt32) : (lin c).toNat = linN c.toNat := by
  have h25 : (goShl32 (c &&& 0x1ffffff) 5).toNat = (c.toNat &&& 0x1ffffff) <<< 5 := by
    rw [goShl32_toNat, UInt32.toNat_and, Nat.shiftLeft_eq]
    apply Nat.mod_eq_of_lt
    have : c.toNat &&& (0x1ffffff : UInt32).toNat ≤ 0x1ffffff := Nat.and_le_right
    omega
  have ht : (goShr32 c 25).toNat = c.toNat >>> 25 := by rw [goShr32_toNat, Nat.shiftRight_eq_div_pow]
  unfold lin polymodStep linN
  simp only [generator, xorGen]
  simp only [goShr32_bit, ht]
  have e0 : UInt8.toUInt32 0 = 0 := rfl
  rw [e0, ← h25]
  cases (c.toNat >>> 25).testBit 0 <;> cases (c.toNat >>> 25).testBit (0+1) <;>
    cases (c.toNat >>> 25).testBit (0+1+1) <;> cases (c.toNat >>> 25).testBit (0+1+1+1) <;>
    cases (c.toNat >>> 25).testBit (0+1+1+1+1) <;> simp

/-- Along `n` steps from `c`, every later value is at least 32. -/
def bigOrbit : Nat → Nat → Bool
  | 0, _ => true
  | n + 1, c => let c' := linN c; (32 ≤ c') && bigOrbit n c'

theorem bigOrbit_all : ∀ e : Fin 32, e ≠ 0 → bigOrbit 1022 e.val = true := by decide +kernel

theorem bigOrbit_spec (n : Nat) : ∀ c : UInt32, bigOrbit n c.toNat = true →
    ∀ k, 1 ≤ k → k ≤ n → 32 ≤ (linPow k c).toNat := by
  induction n with
  | zero => intro c _ k h1 h2; omega
  | succ n ih =>
    intro c h k h1 h2
    simp only [bigOrbit, Bool.and_eq_true, decide_eq_true_eq] at h
    match k with
    | 0 => omega
    | 1 => simp only [linPow]; rw [lin_toNat]; exact h.1
    | k + 2 =>
      have := ih (lin c) (by rw [lin_toNat]; exact h.2) (k+1) (by omega) (by omega)
      exact this

theorem two_err (e1 e2 : UInt8) (h1 : e1.toNat < 32) (h2 : e2.toNat < 32) (hne : e1 ≠ 0) (k : Nat) (hk : 1 ≤ k) (hk2 : k < 1023) :
    linPow k e1.toUInt32 ≠ e2.toUInt32 := by
  intro h
  have hb := bigOrbit_all ⟨e1.toNat, h1⟩ (by
    intro h0
    apply hne
    apply UInt8.toNat_inj.1
    simpa using congrArg Fin.val h0)
  have := bigOrbit_spec 1022 e1.toUInt32 (by simpa using hb) k hk (by omega)
  rw [h] at this
  simp at this; omega

theorem xor8_lt (a b : UInt8) (ha : a.toNat < 32) (hb : b.toNat < 32) : (a ^^^ b).toNat < 32 := by
  rw [UInt8.toNat_xor]; exact Nat.xor_lt_two_pow (n := 5) ha hb

theorem xorList_get (a b : Bytes) (h : a.length = b.length) (i : Nat) (hi : i < a.length) :
    (xorList a b)[i]? = some (a[i] ^^^ b[i]'(h ▸ hi)) := by
  unfold xorList
  simp [List.getElem?_zipWith, hi, h ▸ hi]

/-- An error vector confined to six consecutive positions has nonzero syndrome. -/
theorem burst (e : Bytes) (he : ∀ x ∈ e, x.toNat < 32) (i : Nat)
    (hout : ∀ j (hj : j < e.length), j < i ∨ i + 6 ≤ j → e[j] = 0)
    (h : e.foldl polymodStep 0 = 0) : ∀ x ∈ e, x = 0 := by
  have hzero : ∀ n, (List.replicate n (0:UInt8)).foldl polymodStep 0 = 0 := by
    intro n; rw [foldl_replicate]
    induction n with
    | zero => rfl
    | succ n ih => simp only [linPow]; rw [lin_zero]; exact ih
  -- split e
  have hsplit : e = List.replicate (min i e.length) 0 ++ ((e.drop i).take 6 ++ List.replicate (e.length - (i+6)) 0) := by
    apply List.ext_getElem?
    intro j
    by_cases hj : j < e.length
    · by_cases h1 : j < i
      · rw [List.getElem?_append_left (by simp; omega), List.getElem?_replicate]
        rw [if_pos (by omega), List.getElem?_eq_getElem hj, hout j hj (.inl h1)]
      · have hm : min i e.length = i := by omega
        rw [List.getElem?_append_right (by simp; omega)]
        simp only [List.length_replicate, hm]
        by_cases h2 : j < i + 6
        · rw [List.getElem?_append_left (by simp; omega), List.getElem?_take, if_pos (by omega), List.getElem?_drop]
          congr 1; omega
        · rw [List.getElem?_append_right (by simp; omega), List.getElem?_replicate]
          simp only [List.length_take, List.length_drop]
          rw [if_pos (by omega), List.getElem?_eq_getElem hj, hout j hj (.inr (by omega))]
    · have : e[j]? = none := List.getElem?_eq_none (by omega)
      rw [this]; symm
      apply List.getElem?_eq_none
      simp; omega
  generalize hm : (e.drop i).take 6 = m at hsplit
  have hmlt : ∀ x ∈ m, x.toNat < 32 := by
    intro x hx; rw [← hm] at hx
    exact he x (List.mem_of_mem_drop (List.mem_of_mem_take hx))
  have hmlen : m.length ≤ 6 := by rw [← hm]; simp; omega
  rw [hsplit, List.foldl_append, hzero, List.foldl_append, foldl_replicate] at h
  have h1 := linPow_eq_zero _ _ (foldl_lt m 0 (by simp) hmlt) h
  -- pad m in front to length 6
  have h2 : (List.replicate (6 - m.length) 0 ++ m).foldl polymodStep 0 = ([0,0,0,0,0,0] : Bytes).foldl polymodStep 0 := by
    rw [List.foldl_append, hzero, h1]; exact (hzero 6).symm
  have h3 := six_unique 0 _ _ (by simp; omega) (by rfl) (by
    intro x hx
    rcases List.mem_append.1 hx with h | h
    · rw [List.mem_replicate] at h; rw [h.2]; decide
    · exact hmlt x h) (by decide) h2
  have hmz : ∀ x ∈ m, x = 0 := by
    intro x hx
    have : x ∈ ([0,0,0,0,0,0] : Bytes) := by rw [← h3]; exact List.mem_append_right _ hx
    simpa using this
  intro x hx
  rw [hsplit] at hx
  rcases List.mem_append.1 hx with h | h
  · exact (List.mem_replicate.1 h).2
  · rcases List.mem_append.1 h with h | h
    · exact hmz x h
    · exact (List.mem_replicate.1 h).2

/-- Two nonzero errors less than 1023 positions apart. -/
theorem two_pos (e : Bytes) (he : ∀ x ∈ e, x.toNat < 32) (i k : Nat) (hk : 1 ≤ k) (hk2 : k < 1023)
    (hi : i + k < e.length) (hout : ∀ j (hj : j < e.length), j ≠ i → j ≠ i + k → e[j] = 0)
    (h : e.foldl polymodStep 0 = 0) : e[i] = 0 := by
  have hzero : ∀ n, (List.replicate n (0:UInt8)).foldl polymodStep 0 = 0 := by
    intro n; rw [foldl_replicate]
    induction n with
    | zero => rfl
    | succ n ih => simp only [linPow]; rw [lin_zero]; exact ih
  have hsplit : e = List.replicate i 0 ++ (e[i] :: (List.replicate (k-1) 0 ++ (e[i+k] ::
      List.replicate (e.length - (i+k+1)) 0))) := by
    apply List.ext_getElem?
    intro j
    by_cases hj : j < e.length
    · rw [List.getElem?_eq_getElem hj]
      by_cases h1 : j < i
      · rw [List.getElem?_append_left (by simpa using h1), List.getElem?_replicate, if_pos h1, hout j hj (by omega) (by omega)]
      · rw [List.getElem?_append_right (by simp; omega)]
        simp only [List.length_replicate]
        by_cases h2 : j = i
        · subst h2; simp
        · have : j - i = (j - i - 1) + 1 := by omega
          rw [this, List.getElem?_cons_succ]
          by_cases h3 : j < i + k
          · rw [List.getElem?_append_left (by simp; omega), List.getElem?_replicate, if_pos (by omega), hout j hj (by omega) (by omega)]
          · rw [List.getElem?_append_right (by simp; omega)]
            simp only [List.length_replicate]
            by_cases h4 : j = i + k
            · subst h4
              have : i + k - i - 1 - (k - 1) = 0 := by omega
              rw [this]; simp
            · have : j - i - 1 - (k-1) = (j - i - k - 1) + 1 := by omega
              rw [this, List.getElem?_cons_succ, List.getElem?_replicate, if_pos (by omega), hout j hj (by omega) (by omega)]
    · rw [List.getElem?_eq_none (by omega)]; symm
      apply List.getElem?_eq_none
      simp; omega
  have b1 := he _ (List.getElem_mem (by omega : i < e.length))
  have b2 := he _ (List.getElem_mem hi)
  generalize e[i] = x at *
  generalize e[i+k] = y at *
  rw [hsplit, List.foldl_append, hzero, List.foldl_cons, List.foldl_append, List.foldl_cons, foldl_replicate, foldl_replicate] at h
  have h1 := linPow_eq_zero _ _ (step_lt _ _ b2) h
  rw [step_eq, step_eq, lin_zero] at h1
  simp only [UInt32.zero_xor] at h1
  have h2 : linPow k x.toUInt32 = y.toUInt32 := by
    have e1 : lin (linPow (k-1) x.toUInt32) = linPow k x.toUInt32 := by
      have : ∀ n c, lin (linPow n c) = linPow (n+1) c := by
        intro n
        induction n with
        | zero => intro c; rfl
        | succ n ih => intro c; simp only [linPow]; exact ih _
      rw [this]; congr 1; omega
    rw [e1] at h1
    exact UInt32.xor_eq_zero_iff.1 h1
  exact Classical.byContradiction fun hne => two_err x y b1 b2 hne k hk hk2 h2

/-- Two accepted symbol strings after the same prefix: the difference has zero syndrome. -/
theorem syndrome (E vs vs' : Bytes) (hl : vs.length = vs'.length)
    (h : polymod (E ++ vs) = 1) (h' : polymod (E ++ vs') = 1) : (xorList vs vs').foldl polymodStep 0 = 0 := by
  rw [polymod_append] at h h'
  have := foldl_xor vs vs' (polymod E) (polymod E) hl
  rw [h, h'] at this
  simpa using this

end Cardano.Bech32
