import Verif.Bech32.Model
import Verif.Bech32.Spec
/-! # `convertBits` in terms of numbers and bit strings: helper lemmas -/
set_option autoImplicit false

namespace Cardano.Bech32
open Cardano.Spec

/-- Value of a list of `w`-bit digits, most significant first. -/
def val (w : Nat) (xs : Bytes) : Nat := xs.foldl (fun a x => a * 2 ^ w + x.toNat) 0

@[simp] theorem val_nil (w : Nat) : val w [] = 0 := rfl
theorem val_snoc (w : Nat) (xs : Bytes) (x : UInt8) : val w (xs ++ [x]) = val w xs * 2 ^ w + x.toNat := by
  simp [val]

theorem maxv_and (x : UInt8) (t : Nat) (ht : t ≤ 8) : (x &&& maxv t).toNat = x.toNat % 2 ^ t := by
  rw [UInt8.toNat_and]
  have : (maxv t).toNat = 2 ^ t - 1 := by
    have : ∀ t : Fin 9, (maxv t.val).toNat = 2 ^ t.val - 1 := by decide
    exact this ⟨t, by omega⟩
  rw [this, Nat.and_two_pow_sub_one_eq_mod]

theorem toUInt8_mod (x : UInt32) (t : Nat) (ht : t ≤ 8) : x.toUInt8.toNat % 2 ^ t = x.toNat % 2 ^ t := by
  rw [UInt32.toNat_toUInt8]
  exact Nat.mod_mod_of_dvd _ (Nat.pow_dvd_pow 2 ht)

theorem mod_split (a m n : Nat) : a % 2 ^ (m + n) = (a / 2 ^ n) % 2 ^ m * 2 ^ n + a % 2 ^ n := by
  rw [Nat.add_comm m n, Nat.pow_add, Nat.mod_mul, Nat.mul_comm, Nat.add_comm]

theorem drain_spec (t : Nat) (ht0 : 0 < t) (ht : t ≤ 8) (acc : UInt32) (bits : Nat) (ret : Bytes)
    (hret : ∀ x ∈ ret, x.toNat < 2 ^ t) :
    let r := drain t acc bits ret
    r.1 < t ∧ (∀ x ∈ r.2, x.toNat < 2 ^ t) ∧ t * r.2.length + r.1 = t * ret.length + bits ∧
    val t r.2 * 2 ^ r.1 + acc.toNat % 2 ^ r.1 = val t ret * 2 ^ bits + acc.toNat % 2 ^ bits := by
  induction bits using Nat.strongRecOn generalizing ret with
  | ind bits ih =>
    rw [drain]
    split
    · rename_i h
      have hx : ((goShr32 acc (bits - t)).toUInt8 &&& maxv t).toNat = acc.toNat / 2 ^ (bits - t) % 2 ^ t := by
        rw [maxv_and _ _ ht, toUInt8_mod _ _ ht, goShr32_toNat]
      have := ih (bits - t) (by omega) (ret ++ [(goShr32 acc (bits - t)).toUInt8 &&& maxv t]) (by
        intro x hx'
        rcases List.mem_append.1 hx' with h' | h'
        · exact hret x h'
        · simp only [List.mem_singleton] at h'
          rw [h', hx]; exact Nat.mod_lt _ (Nat.two_pow_pos t))
      obtain ⟨h1, h2, h3, h4⟩ := this
      refine ⟨h1, h2, ?_, ?_⟩
      · rw [h3]; simp; rw [Nat.mul_add]; omega
      · rw [h4, val_snoc, hx]
        have e : bits = t + (bits - t) := by omega
        conv => rhs; rw [e, mod_split, Nat.pow_add]
        rw [Nat.add_mul, Nat.mul_assoc]; omega
    · rename_i h
      exact ⟨by omega, hret, rfl, rfl⟩

theorem goShr8_eq_zero (x : UInt8) (f : Nat) : goShr8 x f = 0 ↔ x.toNat < 2 ^ f := by
  rw [← UInt8.toNat_inj, goShr8_toNat]
  simp [Nat.div_eq_zero_iff]

theorem acc_step (acc : UInt32) (v : UInt8) (f bits : Nat) (hv : v.toNat < 2 ^ f) (h : bits + f ≤ 32) :
    (goShl32 acc f ||| v.toUInt32).toNat % 2 ^ (bits + f) = acc.toNat % 2 ^ bits * 2 ^ f + v.toNat := by
  have hv32 : v.toUInt32.toNat = v.toNat := by simp
  rw [UInt32.toNat_or, hv32, goShl32_toNat]
  have hk : f ≤ 32 := by omega
  -- the shifted accumulator is a multiple of 2^f
  have e1 : acc.toNat * 2 ^ f % 2 ^ 32 = 2 ^ f * (acc.toNat % 2 ^ (32 - f)) := by
    have : (2:Nat) ^ 32 = 2 ^ f * 2 ^ (32 - f) := by rw [← Nat.pow_add]; congr 1; omega
    rw [this, Nat.mul_comm acc.toNat, Nat.mul_mod_mul_left]
  rw [e1, ← Nat.two_pow_add_eq_or_of_lt hv]
  have e2 : (2 ^ f * (acc.toNat % 2 ^ (32 - f)) + v.toNat) % 2 ^ (bits + f)
      = 2 ^ f * ((acc.toNat % 2 ^ (32 - f)) % 2 ^ bits) + v.toNat := by
    rw [Nat.add_comm bits f, Nat.pow_add, Nat.mod_mul]
    have h1 : (2 ^ f * (acc.toNat % 2 ^ (32 - f)) + v.toNat) % 2 ^ f = v.toNat := by
      rw [Nat.mul_add_mod]; exact Nat.mod_eq_of_lt hv
    have h2 : (2 ^ f * (acc.toNat % 2 ^ (32 - f)) + v.toNat) / 2 ^ f = acc.toNat % 2 ^ (32 - f) := by
      rw [Nat.mul_add_div (Nat.two_pow_pos f), Nat.div_eq_of_lt hv]; rfl
    rw [h1, h2]; omega
  rw [e2, Nat.mod_mod_of_dvd _ (Nat.pow_dvd_pow 2 (by omega)), Nat.mul_comm]

theorem convertLoop_spec (f t : Nat) (hf : f ≤ 8) (ht0 : 0 < t) (ht : t ≤ 8) (data : Bytes) :
    ∀ (acc : UInt32) (bits : Nat) (ret : Bytes), bits < t → (∀ x ∈ ret, x.toNat < 2 ^ t) →
      if ∀ x ∈ data, x.toNat < 2 ^ f then
        ∃ acc' bits' ret', convertLoop f t data acc bits ret = .ok (acc', bits', ret') ∧
          bits' < t ∧ (∀ x ∈ ret', x.toNat < 2 ^ t) ∧
          t * ret'.length + bits' = t * ret.length + bits + f * data.length ∧
          val t ret' * 2 ^ bits' + acc'.toNat % 2 ^ bits' =
            data.foldl (fun a x => a * 2 ^ f + x.toNat) (val t ret * 2 ^ bits + acc.toNat % 2 ^ bits)
      else convertLoop f t data acc bits ret = .err "invalid data range" := by
  induction data with
  | nil =>
    intro acc bits ret hb hret
    simp only [List.not_mem_nil, false_imp_iff, implies_true, if_true]
    exact ⟨acc, bits, ret, rfl, hb, hret, by simp, rfl⟩
  | cons v rest ih =>
    intro acc bits ret hb hret
    simp only [convertLoop]
    by_cases hv : v.toNat < 2 ^ f
    · have h0 := (goShr8_eq_zero v f).2 hv
      simp only [h0, ne_eq, not_true_eq_false, if_false]
      have hd := drain_spec t ht0 ht (goShl32 acc f ||| v.toUInt32) (bits + f) ret hret
      generalize hdr : drain t (goShl32 acc f ||| v.toUInt32) (bits + f) ret = r at hd
      obtain ⟨b1, r1⟩ := r
      simp only [] at hd
      obtain ⟨h1, h2, h3, h4⟩ := hd
      have := ih (goShl32 acc f ||| v.toUInt32) b1 r1 h1 h2
      have hiff : (∀ x ∈ v :: rest, x.toNat < 2 ^ f) ↔ ∀ x ∈ rest, x.toNat < 2 ^ f := by
        simp [hv]
      simp only [hiff]
      split
      · rename_i hall
        rw [if_pos hall] at this
        obtain ⟨a', b', r', e, g1, g2, g3, g4⟩ := this
        refine ⟨a', b', r', e, g1, g2, ?_, ?_⟩
        · rw [g3, h3]; simp only [List.length_cons, Nat.mul_add]; omega
        · rw [g4, h4, acc_step _ _ _ _ hv (by omega)]
          simp only [List.foldl_cons]
          congr 1
          rw [Nat.pow_add, Nat.add_mul, Nat.mul_assoc]; omega
      · rename_i hall
        rw [if_neg hall] at this
        exact this
    · have h0 : goShr8 v f ≠ 0 := fun h => hv ((goShr8_eq_zero v f).1 h)
      rw [if_neg, if_pos h0]
      intro h; exact hv (h v List.mem_cons_self)

theorem shl_low (acc : UInt32) (t b : Nat) (hb : b ≤ t) (ht : t ≤ 8) :
    ((goShl32 acc (t - b)).toUInt8 &&& maxv t).toNat = acc.toNat % 2 ^ b * 2 ^ (t - b) := by
  rw [maxv_and _ _ ht, toUInt8_mod _ _ ht, goShl32_toNat, Nat.mod_mod_of_dvd _ (Nat.pow_dvd_pow 2 (by omega))]
  have : (2:Nat) ^ t = 2 ^ b * 2 ^ (t - b) := by rw [← Nat.pow_add]; congr 1; omega
  rw [this, Nat.mul_mod_mul_right]

/-- 8-to-5 with padding: total, and the value/length relation. -/
theorem convert_pad (f t : Nat) (hf : f ≤ 8) (ht0 : 0 < t) (ht : t ≤ 8) (data : Bytes)
    (hd : ∀ x ∈ data, x.toNat < 2 ^ f) :
    ∃ out p, convertBits data f t true = .ok out ∧ (∀ x ∈ out, x.toNat < 2 ^ t) ∧ p < t ∧
      t * out.length = f * data.length + p ∧ val t out = val f data * 2 ^ p := by
  have := convertLoop_spec f t hf ht0 ht data 0 0 [] ht0 (by simp)
  rw [if_pos hd] at this
  obtain ⟨a, b, r, e, h1, h2, h3, h4⟩ := this
  unfold convertBits
  rw [e]
  simp only [if_true]
  have h4' : val t r * 2 ^ b + a.toNat % 2 ^ b = val f data := by rw [h4]; simp [val]
  have h3' : t * r.length + b = f * data.length := by simpa using h3
  by_cases hb : b > 0
  · rw [if_pos hb]
    refine ⟨_, t - b, rfl, ?_, by omega, ?_, ?_⟩
    · intro x hx
      rcases List.mem_append.1 hx with h | h
      · exact h2 x h
      · simp only [List.mem_singleton] at h
        rw [h, shl_low _ _ _ (by omega) ht]
        have : (2:Nat) ^ t = 2 ^ b * 2 ^ (t - b) := by rw [← Nat.pow_add]; congr 1; omega
        rw [this]
        exact Nat.mul_lt_mul_of_pos_right (Nat.mod_lt _ (Nat.two_pow_pos b)) (Nat.two_pow_pos _)
    · simp [Nat.mul_add]; omega
    · rw [val_snoc, shl_low _ _ _ (by omega) ht, ← h4', Nat.add_mul, Nat.mul_assoc, ← Nat.pow_add]
      congr 3; omega
  · rw [if_neg hb]
    have : b = 0 := by omega
    subst this
    refine ⟨r, 0, rfl, h2, ht0, by omega, ?_⟩
    simp [Nat.mod_one] at h4' ⊢
    exact h4'

/-- Without padding: what success means. -/
theorem convert_nopad (f t : Nat) (hf : f ≤ 8) (ht0 : 0 < t) (ht : t ≤ 8) (data out : Bytes)
    (h : convertBits data f t false = .ok out) :
    (∀ x ∈ data, x.toNat < 2 ^ f) ∧ (∀ x ∈ out, x.toNat < 2 ^ t) ∧ ∃ p, p < t ∧ p < f ∧
      f * data.length = t * out.length + p ∧ val f data = val t out * 2 ^ p := by
  have := convertLoop_spec f t hf ht0 ht data 0 0 [] ht0 (by simp)
  by_cases hd : ∀ x ∈ data, x.toNat < 2 ^ f
  · rw [if_pos hd] at this
    obtain ⟨a, b, r, e, h1, h2, h3, h4⟩ := this
    unfold convertBits at h
    rw [e] at h
    simp only [Bool.false_eq_true, if_false] at h
    have h4' : val t r * 2 ^ b + a.toNat % 2 ^ b = val f data := by rw [h4]; simp [val]
    have h3' : t * r.length + b = f * data.length := by simpa using h3
    split at h
    · cases h
    · rename_i hbf
      split at h
      · cases h
      · rename_i hz
        have hz' : a.toNat % 2 ^ b * 2 ^ (t - b) = 0 := by
          rw [← shl_low a t b (by omega) ht]
          have := Classical.not_not.1 hz
          rw [this]; rfl
        have hz'' : a.toNat % 2 ^ b = 0 := by
          rcases Nat.mul_eq_zero.1 hz' with h | h
          · exact h
          · have := Nat.two_pow_pos (t - b); omega
        cases h
        exact ⟨hd, h2, b, h1, by omega, h3'.symm, by omega⟩
  · rw [if_neg hd] at this
    unfold convertBits at h
    rw [this] at h
    cases h

theorem val_foldl (w : Nat) (xs : Bytes) : ∀ a, xs.foldl (fun a x => a * 2 ^ w + x.toNat) a = a * 2 ^ (w * xs.length) + val w xs := by
  induction xs with
  | nil => intro a; simp
  | cons x xs ih =>
    intro a
    unfold val
    simp only [List.foldl_cons]
    rw [ih, ih (0 * _ + _)]
    simp only [List.length_cons, Nat.mul_add, Nat.mul_one, Nat.pow_add, Nat.zero_mul, Nat.zero_add, Nat.add_mul]
    rw [Nat.mul_assoc, Nat.mul_comm (2 ^ w)]; omega

theorem val_cons (w : Nat) (x : UInt8) (xs : Bytes) : val w (x :: xs) = x.toNat * 2 ^ (w * xs.length) + val w xs := by
  conv => lhs; unfold val
  simp only [List.foldl_cons]
  rw [val_foldl]; simp

theorem val_lt (w : Nat) (xs : Bytes) (h : ∀ x ∈ xs, x.toNat < 2 ^ w) : val w xs < 2 ^ (w * xs.length) := by
  induction xs with
  | nil => simp
  | cons x xs ih =>
    rw [val_cons]
    have h1 := h x List.mem_cons_self
    have h2 := ih fun y hy => h y (List.mem_cons_of_mem _ hy)
    simp only [List.length_cons, Nat.mul_add, Nat.mul_one]
    rw [Nat.add_comm, Nat.pow_add, Nat.mul_comm (2 ^ (w * _))]
    have : (x.toNat + 1) * 2 ^ (w * xs.length) ≤ 2 ^ w * 2 ^ (w * xs.length) := Nat.mul_le_mul_right _ h1
    rw [Nat.add_mul] at this; omega

theorem val_inj (w : Nat) (xs : Bytes) : ∀ ys : Bytes, (∀ x ∈ xs, x.toNat < 2 ^ w) → (∀ x ∈ ys, x.toNat < 2 ^ w) →
    xs.length = ys.length → val w xs = val w ys → xs = ys := by
  induction xs with
  | nil => intro ys _ _ h _; cases ys <;> simp_all
  | cons x xs ih =>
    intro ys hx hy hl hv
    cases ys with
    | nil => simp at hl
    | cons y ys =>
      have hl' : xs.length = ys.length := by simpa using hl
      rw [val_cons, val_cons, hl'] at hv
      have b1 := val_lt w xs fun y hy => hx y (List.mem_cons_of_mem _ hy)
      have b2 := val_lt w ys fun z hz => hy z (List.mem_cons_of_mem _ hz)
      rw [hl'] at b1
      have hpos := Nat.two_pow_pos (w * ys.length)
      have e1 : x.toNat = y.toNat := by
        have := congrArg (· / 2 ^ (w * ys.length)) hv
        rw [Nat.mul_comm, Nat.mul_add_div hpos, Nat.div_eq_of_lt b1, Nat.mul_comm, Nat.mul_add_div hpos,
          Nat.div_eq_of_lt b2] at this
        simpa using this
      have e2 : val w xs = val w ys := by rw [e1] at hv; omega
      rw [UInt8.toNat_inj.1 e1, ih ys (fun y hy => hx y (List.mem_cons_of_mem _ hy))
        (fun z hz => hy z (List.mem_cons_of_mem _ hz)) hl' e2]

/-- Without padding: a sufficient condition for success (and then the output is determined). -/
theorem convert_nopad_ok (f t : Nat) (hf : f ≤ 8) (ht0 : 0 < t) (ht : t ≤ 8) (data out : Bytes)
    (hd : ∀ x ∈ data, x.toNat < 2 ^ f) (ho : ∀ x ∈ out, x.toNat < 2 ^ t) (p : Nat) (hpf : p < f) (hpt : p < t)
    (hl : f * data.length = t * out.length + p) (hv : val f data = val t out * 2 ^ p) :
    convertBits data f t false = .ok out := by
  have := convertLoop_spec f t hf ht0 ht data 0 0 [] ht0 (by simp)
  rw [if_pos hd] at this
  obtain ⟨a, b, r, e, h1, h2, h3, h4⟩ := this
  unfold convertBits
  rw [e]
  simp only [Bool.false_eq_true, if_false]
  have h4' : val t r * 2 ^ b + a.toNat % 2 ^ b = val f data := by rw [h4]; simp [val]
  have h3' : t * r.length + b = f * data.length := by simpa using h3
  have hlen : r.length = out.length ∧ b = p := by
    have hh : t * r.length + b = t * out.length + p := by omega
    have e1 := congrArg (· / t) hh
    have e2 := congrArg (· % t) hh
    simp only [Nat.mul_add_div ht0, Nat.div_eq_of_lt h1, Nat.div_eq_of_lt hpt, Nat.mul_add_mod,
      Nat.mod_eq_of_lt h1, Nat.mod_eq_of_lt hpt] at e1 e2
    exact ⟨by omega, e2⟩
  obtain ⟨hl1, rfl⟩ := hlen
  have hz : a.toNat % 2 ^ b = 0 := by
    have : (val t r * 2 ^ b + a.toNat % 2 ^ b) % 2 ^ b = (val t out * 2 ^ b) % 2 ^ b := by rw [h4', hv]
    rw [Nat.mul_comm, Nat.mul_add_mod, Nat.mod_mod, Nat.mul_mod_left] at this
    exact this
  have hvr : val t r = val t out := by
    rw [hz, hv] at h4'
    exact Nat.eq_of_mul_eq_mul_right (Nat.two_pow_pos b) (by omega)
  rw [if_neg (by omega), if_neg]
  · rw [val_inj t r out h2 ho hl1 hvr]
  · intro h; apply h
    apply UInt8.toNat_inj.1
    rw [shl_low a t b (by omega) ht, hz]; simp

/-! ### Bit strings -/

/-- Value of a bit list, most significant first. -/
def ofBits (l : List Bool) : Nat := l.foldl (fun a b => 2 * a + b.toNat) 0

theorem ofBits_foldl (l : List Bool) : ∀ a, l.foldl (fun a b => 2 * a + b.toNat) a = a * 2 ^ l.length + ofBits l := by
  induction l with
  | nil => intro a; simp [ofBits]
  | cons b l ih =>
    intro a
    unfold ofBits
    simp only [List.foldl_cons]
    rw [ih, ih (2 * 0 + _)]
    simp only [List.length_cons, Nat.pow_succ, Nat.mul_zero, Nat.zero_add, Nat.add_mul]
    rw [Nat.mul_comm 2 a, Nat.mul_assoc, Nat.mul_comm 2]; omega

theorem ofBits_append (a b : List Bool) : ofBits (a ++ b) = ofBits a * 2 ^ b.length + ofBits b := by
  unfold ofBits; rw [List.foldl_append, ofBits_foldl]; rfl

theorem ofBits_cons (b : Bool) (l : List Bool) : ofBits (b :: l) = b.toNat * 2 ^ l.length + ofBits l := by
  have := ofBits_append [b] l
  simpa [ofBits] using this

theorem bitsOf_length (w n : Nat) : (bitsOf w n).length = w := by
  induction w with
  | zero => rfl
  | succ w ih => simp [bitsOf, ih]

theorem ofBits_bitsOf (w n : Nat) : ofBits (bitsOf w n) = n % 2 ^ w := by
  induction w with
  | zero => simp [bitsOf, ofBits, Nat.mod_one]
  | succ w ih =>
    simp only [bitsOf]
    rw [ofBits_cons, bitsOf_length, ih, Nat.pow_succ, Nat.mod_mul]
    have : (n.testBit w).toNat = n / 2 ^ w % 2 := by
      rw [Nat.testBit_eq_decide_div_mod_eq]
      rcases Nat.mod_two_eq_zero_or_one (n / 2 ^ w) with h | h <;> simp [h]
    rw [this, Nat.mul_comm]; omega

theorem ofBits_lt (l : List Bool) : ofBits l < 2 ^ l.length := by
  induction l with
  | nil => simp [ofBits]
  | cons b l ih =>
    rw [ofBits_cons]; simp only [List.length_cons, Nat.pow_succ]
    cases b <;> simp <;> omega

theorem ofBits_inj (a : List Bool) : ∀ b : List Bool, a.length = b.length → ofBits a = ofBits b → a = b := by
  induction a with
  | nil => intro b h _; cases b <;> simp_all
  | cons x a ih =>
    intro b hl hv
    cases b with
    | nil => simp at hl
    | cons y b =>
      have hl' : a.length = b.length := by simpa using hl
      rw [ofBits_cons, ofBits_cons, hl'] at hv
      have h1 := ofBits_lt a
      have h2 := ofBits_lt b
      rw [hl'] at h1
      cases x <;> cases y <;> simp at hv <;> first | (rw [ih b hl' hv]) | omega

theorem bitStream_length (w : Nat) (xs : Bytes) : (bitStream w xs).length = w * xs.length := by
  induction xs with
  | nil => rfl
  | cons x xs ih =>
    simp only [bitStream, List.flatMap_cons, List.length_append, bitsOf_length, List.length_cons] at *
    rw [ih, Nat.mul_add]; omega

theorem ofBits_bitStream (w : Nat) (xs : Bytes) (h : ∀ x ∈ xs, x.toNat < 2 ^ w) : ofBits (bitStream w xs) = val w xs := by
  induction xs with
  | nil => rfl
  | cons x xs ih =>
    have hl := bitStream_length w xs
    have e : bitStream w (x :: xs) = bitsOf w x.toNat ++ bitStream w xs := by simp [bitStream]
    rw [e, ofBits_append, hl, ih fun y hy => h y (List.mem_cons_of_mem _ hy), ofBits_bitsOf,
      Nat.mod_eq_of_lt (h x List.mem_cons_self), val_cons]

theorem ofBits_zeros (n : Nat) : ofBits (List.replicate n false) = 0 := by
  induction n with
  | zero => rfl
  | succ n ih => rw [List.replicate_succ, ofBits_cons, ih]; simp

theorem stream_eq_iff (f t : Nat) (xs ys : Bytes) (p : Nat) (hx : ∀ x ∈ xs, x.toNat < 2 ^ f)
    (hy : ∀ y ∈ ys, y.toNat < 2 ^ t) :
    bitStream f xs = bitStream t ys ++ List.replicate p false ↔
      f * xs.length = t * ys.length + p ∧ val f xs = val t ys * 2 ^ p := by
  constructor
  · intro h
    constructor
    · have := congrArg List.length h
      simpa [bitStream_length] using this
    · have := congrArg ofBits h
      rw [ofBits_bitStream f xs hx, ofBits_append, ofBits_bitStream t ys hy, ofBits_zeros] at this
      simpa using this
  · rintro ⟨h1, h2⟩
    apply ofBits_inj
    · simpa [bitStream_length] using h1
    · rw [ofBits_bitStream f xs hx, ofBits_append, ofBits_bitStream t ys hy, ofBits_zeros]
      simpa using h2

end Cardano.Bech32
