import Verif.Address.Spec
import Verif.Bech32.Codec
/-!
# Lemmas on variable-length naturals, hexadecimal, headers
-/
set_option autoImplicit false

namespace Cardano.Addr
open Cardano.Spec

/-! ### Variable-length naturals -/

theorem val128_foldl (b : Bytes) : ∀ a, b.foldl (fun a x => a * 128 + x.toNat % 128) a = a * 128 ^ b.length + val128 b := by
  induction b with
  | nil => intro a; simp [val128]
  | cons x b ih =>
    intro a
    unfold val128
    simp only [List.foldl_cons, List.length_cons]
    rw [ih, ih (0 * 128 + _), Nat.pow_succ]
    simp only [Nat.zero_mul, Nat.zero_add, Nat.add_mul]
    rw [Nat.mul_assoc, Nat.mul_comm 128]; omega

theorem val128_append (a b : Bytes) : val128 (a ++ b) = val128 a * 128 ^ b.length + val128 b := by
  conv => lhs; unfold val128
  rw [List.foldl_append, val128_foldl]; rfl

theorem val128_cons (x : UInt8) (b : Bytes) : val128 (x :: b) = (x.toNat % 128) * 128 ^ b.length + val128 b := by
  have := val128_append [x] b
  simpa [val128] using this

theorem val128_lt (b : Bytes) : val128 b < 128 ^ b.length := by
  induction b with
  | nil => simp [val128]
  | cons x b ih =>
    rw [val128_cons, List.length_cons, Nat.pow_succ]
    have : x.toNat % 128 < 128 := Nat.mod_lt _ (by omega)
    have h2 : (x.toNat % 128 + 1) * 128 ^ b.length ≤ 128 * 128 ^ b.length := Nat.mul_le_mul_right _ (by omega)
    rw [Nat.add_mul] at h2; omega

theorem toU8 (n : UInt64) : n.toUInt8.toNat = n.toNat % 256 := by simp

theorem and7F (x : UInt8) : (x &&& 0x7F).toNat = x.toNat % 128 := by
  revert x; exact forall_byte (by decide +kernel)

theorem or80 (x : UInt8) : (x &&& 0x7F ||| 0x80).toNat = x.toNat % 128 + 128 := by
  revert x; exact forall_byte (by decide +kernel)

theorem and80 (x : UInt8) : (x &&& 0x80 = 0) ↔ x.toNat < 128 := by
  revert x; exact forall_byte (by decide +kernel)

theorem natLoop_spec (f : Nat) : ∀ n : UInt64, n.toNat < 128 ^ f →
    (∀ x ∈ natLoop f n, 128 ≤ x.toNat) ∧ val128 (natLoop f n).reverse = n.toNat ∧
      (∀ z, (natLoop f n).getLast? = some z → z.toNat ≠ 128) := by
  induction f with
  | zero => intro n h; simp at h; simp [natLoop, val128, h]
  | succ f ih =>
    intro n h
    have hd : (n / 128).toNat = n.toNat / 128 := by simp
    obtain ⟨h1, h2, h3⟩ := ih (n / 128) (by rw [hd, Nat.div_lt_iff_lt_mul (by omega), ← Nat.pow_succ]; exact h)
    unfold natLoop
    by_cases hn : n > 0
    · rw [if_pos hn]
      refine ⟨?_, ?_, ?_⟩
      · intro x hx
        rcases List.mem_cons.1 hx with rfl | hx
        · rw [or80]; omega
        · exact h1 x hx
      · rw [List.reverse_cons, val128_append, h2, hd]
        simp only [val128, List.foldl_cons, List.foldl_nil, List.length_singleton]
        rw [or80, toU8]
        omega
      · intro z hz
        by_cases hl : natLoop f (n / 128) = []
        · simp only [hl, List.getLast?_singleton, Option.some.injEq] at hz
          rw [← hz, or80, toU8]
          rw [hl] at h2
          simp [val128] at h2
          have : 0 < n.toNat := by simpa [UInt64.lt_iff_toNat_lt] using hn
          omega
        · obtain ⟨y, t, e⟩ := List.exists_cons_of_ne_nil hl
          rw [e, List.getLast?_cons_cons, ← e] at hz; exact h3 z hz
    · rw [if_neg hn]
      have : n.toNat = 0 := by
        simp only [gt_iff_lt, UInt64.lt_iff_toNat_lt] at hn
        simpa using hn
      simp [val128, this]

theorem encode_spec (n : UInt64) : IsVlq (VariableNatEncode n) ∧ val128 (VariableNatEncode n) = n.toNat ∧
    (∀ x t, VariableNatEncode n = x :: t → t ≠ [] → x.toNat ≠ 128) := by
  have hn := UInt64.toNat_lt n
  have hd : (n / 128).toNat = n.toNat / 128 := by simp
  obtain ⟨h1, h2, h3⟩ := natLoop_spec 10 (n / 128) (by rw [hd]; omega)
  unfold VariableNatEncode
  rw [List.reverse_cons]
  refine ⟨⟨_, _, rfl, fun x hx => h1 x (List.mem_reverse.1 hx), ?_⟩, ?_, ?_⟩
  · rw [and7F]; omega
  · rw [val128_append, h2, hd]
    simp only [val128, List.foldl_cons, List.foldl_nil, List.length_singleton]
    rw [and7F, toU8]
    omega
  · intro x t he ht
    by_cases hl : natLoop 10 (n / 128) = []
    · rw [hl] at he
      simp at he; exact absurd he.2 (by simpa using ht.symm)
    · apply h3 x
      have e2 : (natLoop 10 (n / 128)).reverse ≠ [] := by simpa using hl
      have := congrArg List.head? he
      obtain ⟨y, t', e3⟩ := List.exists_cons_of_ne_nil e2
      rw [e3, List.cons_append, List.head?_cons, List.head?_cons] at this
      have e4 := congrArg List.head? e3
      rw [List.head?_reverse, List.head?_cons, this] at e4
      exact e4

theorem vlq_ne_nil {b : Bytes} (h : IsVlq b) : b ≠ [] := by
  obtain ⟨i, l, rfl, _⟩ := h; simp

/-- A variable-length natural without leading zero digit is minimal. -/
theorem minimal_of_lead (b : Bytes) (h : IsVlq b) (hx : ∀ x t, b = x :: t → t ≠ [] → x.toNat ≠ 128) : MinimalVlq b := by
  refine ⟨h, fun b' hb' hv => ?_⟩
  have hne' := List.length_pos_iff.2 (vlq_ne_nil hb')
  cases b with
  | nil => simp
  | cons x t =>
    by_cases ht : t = []
    · subst ht; simp only [List.length_singleton]; omega
    · have hx := hx x t rfl ht
      obtain ⟨i, l, e, hi, hl⟩ := h
      have hxi : 128 ≤ x.toNat := by
        cases i with
        | nil => simp at e; exact absurd e.2 ht
        | cons y i => simp only [List.cons_append, List.cons.injEq] at e; rw [e.1]; exact hi y (by simp)
      have hxlt := UInt8.toNat_lt x
      have h1 : 128 ^ t.length ≤ val128 (x :: t) := by
        rw [val128_cons]
        have : 1 * 128 ^ t.length ≤ (x.toNat % 128) * 128 ^ t.length := Nat.mul_le_mul_right _ (by omega)
        omega
      have h2 := val128_lt b'
      rw [hv] at h2
      have h3 : 128 ^ t.length < 128 ^ b'.length := by omega
      have := (Nat.pow_lt_pow_iff_right (by omega : 1 < 128)).1 h3
      simp only [List.length_cons]; omega

/-- The minimal form of a number is unique. -/
theorem minimal_unique (b b' : Bytes) (h : MinimalVlq b) (h' : MinimalVlq b') (hv : val128 b = val128 b') : b = b' := by
  have hlen : b.length = b'.length :=
    Nat.le_antisymm (h.2 b' h'.1 hv.symm) (h'.2 b h.1 hv)
  obtain ⟨i, l, rfl, hi, hl⟩ := h.1
  obtain ⟨i', l', rfl, hi', hl'⟩ := h'.1
  have key : ∀ (i i' : Bytes), i.length = i'.length → (∀ x ∈ i, 128 ≤ x.toNat) → (∀ x ∈ i', 128 ≤ x.toNat) →
      val128 i = val128 i' → i = i' := by
    intro i
    induction i with
    | nil => intro i' h _ _ _; cases i' <;> simp_all
    | cons x i ih =>
      intro i' h h1 h2 hv
      cases i' with
      | nil => simp at h
      | cons y i' =>
        simp only [List.length_cons, Nat.add_right_cancel_iff] at h
        rw [val128_cons, val128_cons, h] at hv
        have a1 := val128_lt i
        have a2 := val128_lt i'
        rw [h] at a1
        have hxy : x.toNat % 128 = y.toNat % 128 := by
          have e1 : (x.toNat % 128 * 128 ^ i'.length + val128 i) / 128 ^ i'.length = x.toNat % 128 := by
            rw [Nat.mul_comm, Nat.mul_add_div (by omega), Nat.div_eq_of_lt a1]; omega
          have e2 : (y.toNat % 128 * 128 ^ i'.length + val128 i') / 128 ^ i'.length = y.toNat % 128 := by
            rw [Nat.mul_comm, Nat.mul_add_div (by omega), Nat.div_eq_of_lt a2]; omega
          rw [← e1, ← e2, hv]
        have hx := UInt8.toNat_lt x
        have hy := UInt8.toNat_lt y
        have hx1 := h1 x (by simp)
        have hy1 := h2 y (by simp)
        have : x = y := UInt8.toNat_inj.1 (by omega)
        subst this
        rw [ih i' h (fun z hz => h1 z (by simp [hz])) (fun z hz => h2 z (by simp [hz])) (by omega)]
  rw [val128_append, val128_append] at hv
  simp only [val128, List.foldl_cons, List.foldl_nil, List.length_singleton, Nat.pow_one] at hv
  simp only [List.length_append, List.length_singleton, Nat.add_right_cancel_iff] at hlen
  have : l = l' := UInt8.toNat_inj.1 (by omega)
  subst this
  rw [key i i' hlen hi hi' (by unfold val128; omega)]

theorem shl7_or (o : UInt64) (x : UInt8) : ((o <<< 7) ||| (x &&& 0x7F).toUInt64).toNat = (o.toNat * 128 + x.toNat % 128) % 2 ^ 64 := by
  have hx := and7F x
  have ho := UInt64.toNat_lt o
  rw [UInt64.toNat_or, UInt64.toNat_shiftLeft, UInt8.toNat_toUInt64, hx]
  simp only [UInt64.reduceToNat, Nat.shiftLeft_eq]
  have e : o.toNat * 2 ^ (7 % 64) % 2 ^ 64 = 2 ^ 7 * (o.toNat % 2 ^ 57) := by
    have : 2 ^ (7 % 64) = 128 := by decide
    rw [this]; omega
  rw [e, ← Nat.two_pow_add_eq_or_of_lt (by omega)]
  omega

theorem decodeLoop_of (i : Bytes) : ∀ (l : UInt8) (rest : Bytes) (o : UInt64) (k : Nat), (∀ x ∈ i, 128 ≤ x.toNat) → l.toNat < 128 →
    ∃ v, natDecodeLoop (i ++ l :: rest) o k = .ok (v, k + i.length + 1) ∧
      v.toNat = (o.toNat * 128 ^ (i.length + 1) + val128 (i ++ [l])) % 2 ^ 64 := by
  induction i with
  | nil =>
    intro l rest o k _ hl
    refine ⟨(o <<< 7) ||| (l &&& 0x7F).toUInt64, ?_, ?_⟩
    · simp only [List.nil_append, natDecodeLoop, (and80 l).2 hl, if_true]; simp
    · rw [shl7_or]; simp [val128]
  | cons x i ih =>
    intro l rest o k hi hl
    have hx := hi x (by simp)
    obtain ⟨v, h1, h2⟩ := ih l rest ((o <<< 7) ||| (x &&& 0x7F).toUInt64) (k + 1) (fun y hy => hi y (by simp [hy])) hl
    refine ⟨v, ?_, ?_⟩
    · have : ¬ (x &&& 0x80 = 0) := by rw [and80]; omega
      simp only [List.cons_append, natDecodeLoop, this, if_false]
      rw [h1]; simp only [List.length_cons]
      congr 2; omega
    · rw [h2, shl7_or, List.cons_append, val128_cons]
      simp only [List.length_append, List.length_cons, List.length_nil, Nat.zero_add]
      rw [Nat.add_mod, Nat.mul_mod, Nat.mod_mod, ← Nat.mul_mod, ← Nat.add_mod]
      congr 1
      rw [Nat.pow_succ 128 (i.length + 1), Nat.add_mul]
      have : o.toNat * 128 * 128 ^ (i.length + 1) = o.toNat * (128 ^ (i.length + 1) * 128) := by
        rw [Nat.mul_assoc, Nat.mul_comm 128]
      omega

theorem decode_of {b rest : Bytes} (h : IsVlq b) :
    ∃ v, VariableNatDecode (b ++ rest) = .ok (v, b.length) ∧ v.toNat = val128 b % 2 ^ 64 := by
  obtain ⟨i, l, rfl, hi, hl⟩ := h
  obtain ⟨v, h1, h2⟩ := decodeLoop_of i l rest 0 0 hi hl
  refine ⟨v, ?_, by simpa using h2⟩
  unfold VariableNatDecode
  rw [List.append_assoc]
  simpa using h1

theorem decodeLoop_ok (raw : Bytes) : ∀ (o : UInt64) (k : Nat) (v : UInt64) (m : Nat), natDecodeLoop raw o k = .ok (v, m) →
    ∃ i l rest, raw = i ++ l :: rest ∧ (∀ x ∈ i, 128 ≤ x.toNat) ∧ l.toNat < 128 := by
  induction raw with
  | nil => intro o k v m h; cases h
  | cons x raw ih =>
    intro o k v m h
    simp only [natDecodeLoop] at h
    split at h
    · rename_i hx
      exact ⟨[], x, raw, rfl, by simp, (and80 x).1 hx⟩
    · rename_i hx
      rw [and80] at hx
      obtain ⟨i, l, rest, rfl, h1, h2⟩ := ih _ _ _ _ h
      refine ⟨x :: i, l, rest, rfl, ?_, h2⟩
      intro y hy
      rcases List.mem_cons.1 hy with rfl | hy
      · omega
      · exact h1 y hy

/-- Everything the decoder accepts: it stops at the end of a variable-length natural and returns it modulo 2^64. -/
theorem decode_ok {raw : Bytes} {v : UInt64} {m : Nat} (h : VariableNatDecode raw = .ok (v, m)) :
    ∃ b rest, raw = b ++ rest ∧ IsVlq b ∧ m = b.length ∧ v.toNat = val128 b % 2 ^ 64 := by
  obtain ⟨i, l, rest, rfl, h1, h2⟩ := decodeLoop_ok raw _ _ _ _ h
  have hv : IsVlq (i ++ [l]) := ⟨i, l, rfl, h1, h2⟩
  obtain ⟨v', e1, e2⟩ := decode_of (rest := rest) hv
  have e : i ++ l :: rest = (i ++ [l]) ++ rest := by simp
  rw [e, e1] at h
  cases h
  exact ⟨_, rest, e, hv, rfl, e2⟩

theorem decode_not_panic (raw : Bytes) : VariableNatDecode raw ≠ .panic := by
  unfold VariableNatDecode
  have : ∀ (raw : Bytes) o k, natDecodeLoop raw o k ≠ .panic := by
    intro raw
    induction raw with
    | nil => intro o k h; cases h
    | cons x raw ih =>
      intro o k
      simp only [natDecodeLoop]
      split
      · intro h; cases h
      · exact ih _ _
  exact this raw 0 0

/-- A decoder result is the encoding when the consumed bytes are minimal and below 2^64. -/
theorem encode_of_minimal (b : Bytes) (h : MinimalVlq b) (v : UInt64) (hv : v.toNat = val128 b) : VariableNatEncode v = b := by
  obtain ⟨a1, a2, a3⟩ := encode_spec v
  exact minimal_unique _ _ (minimal_of_lead _ a1 a3) h (by omega)

theorem encode_length_pos (n : UInt64) : 1 ≤ (VariableNatEncode n).length :=
  List.length_pos_iff.2 (vlq_ne_nil (encode_spec n).1)

/-! ### Hexadecimal -/

theorem hexVal_eq (c : UInt8) : hexVal c = (Hex.fromHexChar c).map UInt8.toNat := by
  revert c; exact forall_byte (by decide +kernel)

theorem hexChar_lt (c a : UInt8) (h : Hex.fromHexChar c = some a) : a.toNat < 16 := by
  have : ∀ c, ((Hex.fromHexChar c).all fun a => a.toNat < 16) = true := forall_byte (by decide +kernel)
  have := this c; rw [h] at this; simpa using this

theorem nib_or (a b : UInt8) (ha : a.toNat < 16) (hb : b.toNat < 16) : ((a <<< 4) ||| b).toNat = 16 * a.toNat + b.toNat := by
  have : ∀ i j : Fin 16, ((UInt8.ofNat i.val <<< 4) ||| UInt8.ofNat j.val).toNat = 16 * i.val + j.val := by decide +kernel
  have := this ⟨a.toNat, ha⟩ ⟨b.toNat, hb⟩
  simpa using this

theorem hex_decode_of {s b : Bytes} (h : IsHexOf s b) : Hex.decode s = (b, none) := by
  induction h with
  | nil => rfl
  | @cons c d x i j s b hc hd hx _ ih =>
    rw [hexVal_eq] at hc hd
    obtain ⟨a, ha, rfl⟩ := Option.map_eq_some_iff.1 hc
    obtain ⟨a', ha', rfl⟩ := Option.map_eq_some_iff.1 hd
    simp only [Hex.decode, ha, ha', ih]
    have : (a <<< 4) ||| a' = x := UInt8.toNat_inj.1 (by rw [nib_or _ _ (hexChar_lt _ _ ha) (hexChar_lt _ _ ha'), hx])
    rw [this]

theorem hex_decode_ok (s : Bytes) : ∀ b, Hex.decode s = (b, none) → IsHexOf s b := by
  induction hn : s.length using Nat.strongRecOn generalizing s with
  | ind n ih =>
    intro b h
    match s, hn with
    | [], _ => simp only [Hex.decode, Prod.mk.injEq, and_true] at h; rw [← h]; exact .nil
    | [c], _ => simp only [Hex.decode, Prod.mk.injEq] at h; cases h.2
    | c :: d :: s, hn =>
      simp only [Hex.decode] at h
      cases ha : Hex.fromHexChar c with
      | none => rw [ha] at h; simp at h
      | some a =>
        cases hb : Hex.fromHexChar d with
        | none => rw [ha, hb] at h; simp at h
        | some a' =>
          rw [ha, hb] at h
          simp only [Prod.mk.injEq] at h
          obtain ⟨h1, h2⟩ := h
          subst h1
          have := ih s.length (by simp only [List.length_cons] at hn; omega) s rfl (Hex.decode s).1 (Prod.ext rfl h2)
          refine .cons (i := a.toNat) (j := a'.toNat) (by rw [hexVal_eq, ha]; rfl) (by rw [hexVal_eq, hb]; rfl) ?_ this
          exact nib_or _ _ (hexChar_lt _ _ ha) (hexChar_lt _ _ hb)

/-! ### Headers -/

theorem copyZ_length (n : Nat) (s : Bytes) : (copyZ n s).length = n := by
  simp [copyZ]

theorem copyZ_eq (n : Nat) (s : Bytes) (h : s.length = n) : copyZ n s = s := by
  simp [copyZ, ← h]

end Cardano.Addr
