import Verif.Address.Lemmas
import Verif.Cbor.Lemmas
/-!
# Characterisation of `NewAddressFromBytes`
-/
set_option autoImplicit false

namespace Cardano.Addr
open Cardano.Spec

/-- Type nibble of a header byte. -/
theorem ty_eq (h k : UInt8) (_hk : k.toNat < 16) : ((h &&& 0xF0) >>> 4 = k) ↔ h.toNat / 16 = k.toNat := by
  have : ∀ h : UInt8, ((h &&& 0xF0) >>> 4).toNat = h.toNat / 16 := forall_byte (by decide +kernel)
  rw [← UInt8.toNat_inj, this]

theorem nib_lo (h : UInt8) : (h &&& 0x0F).toNat = h.toNat % 16 := by
  revert h; exact forall_byte (by decide +kernel)

/-- Credential kind read from a header bit. -/
def kindOf (h : UInt8) (bit : Nat) : UInt8 := if h.toNat / 2 ^ bit % 2 = 0 then 0 else 1

theorem bit4 (h : UInt8) : (h &&& goShl8 1 4 = 0) ↔ h.toNat / 2 ^ 4 % 2 = 0 := by
  revert h; exact forall_byte (by decide +kernel)
theorem bit5 (h : UInt8) : (h &&& goShl8 1 5 = 0) ↔ h.toNat / 2 ^ 5 % 2 = 0 := by
  revert h; exact forall_byte (by decide +kernel)

theorem readAddrCred_eq (data spare : Bytes) (h : UInt8) (bit pos : Nat) (hb : bit = 4 ∨ bit = 5) :
    readAddrCred data spare h bit pos =
      if pos + 28 ≤ data.length + spare.length then .ok ⟨kindOf h bit, ((data ++ spare).drop pos).take 28⟩ else .panic := by
  unfold readAddrCred kindOf
  by_cases hp : pos + 28 ≤ data.length + spare.length
  · rw [if_neg (by omega), if_pos hp]
    rcases hb with rfl | rfl
    · simp only [bit4]; split <;> rfl
    · simp only [bit5]; split <;> rfl
  · rw [if_pos (by omega), if_neg hp]

theorem parse_byron (strict : Bool) (h : UInt8) (t spare : Bytes) (hty : h.toNat / 16 = 8) :
    NewAddressFromBytes strict (h :: t) spare = (Byron.unmarshal strict (h :: t) >>= fun b => .ok (.byron b)) := by
  have e : (h &&& 0xF0) >>> 4 = 8 := (ty_eq h 8 (by decide)).2 hty
  simp only [NewAddressFromBytes, e, if_true]
  rfl

/-- Side conditions on the type nibble for `simp`. -/
theorem tyne (h k : UInt8) (hk : k.toNat < 16) (n : h.toNat / 16 ≠ k.toNat) : ((h &&& 0xF0) >>> 4 = k) = False :=
  eq_false (fun e => n ((ty_eq h k hk).1 e))

theorem parse_base (strict : Bool) (h : UInt8) (t spare : Bytes) (hty : h.toNat / 16 ≤ 3) :
    NewAddressFromBytes strict (h :: t) spare =
      if 57 ≤ (h :: t).length + spare.length then
        .ok (.base (networks (h &&& 0x0F)) ⟨kindOf h 4, (((h :: t) ++ spare).drop 1).take 28⟩
          ⟨kindOf h 5, (((h :: t) ++ spare).drop 29).take 28⟩)
      else .panic := by
  have e8 := tyne h 8 (by decide) (by show _ ≠ 8; omega)
  have e : (h &&& 0xF0) >>> 4 = 0 ∨ (h &&& 0xF0) >>> 4 = 1 ∨ (h &&& 0xF0) >>> 4 = 2 ∨ (h &&& 0xF0) >>> 4 = 3 := by
    rw [ty_eq h 0 (by decide), ty_eq h 1 (by decide), ty_eq h 2 (by decide), ty_eq h 3 (by decide)]
    show _ = 0 ∨ _ = 1 ∨ _ = 2 ∨ _ = 3
    omega
  simp only [NewAddressFromBytes, e8, if_false]
  rw [if_pos e, readAddrCred_eq _ _ _ _ _ (Or.inl rfl), readAddrCred_eq _ _ _ _ _ (Or.inr rfl)]
  by_cases h1 : 57 ≤ (h :: t).length + spare.length
  · rw [if_pos (by omega), if_pos (by omega), if_pos h1]; rfl
  · by_cases h2 : 1 + 28 ≤ (h :: t).length + spare.length
    · rw [if_pos h2, if_neg (show ¬ 1 + 28 + 28 ≤ _ by omega), if_neg h1]; rfl
    · rw [if_neg h2, if_neg (show ¬ 1 + 28 + 28 ≤ _ by omega), if_neg h1]; rfl

theorem parse_enterprise (strict : Bool) (h : UInt8) (t spare : Bytes) (hty : h.toNat / 16 = 6 ∨ h.toNat / 16 = 7) :
    NewAddressFromBytes strict (h :: t) spare =
      if (h :: t).length < 29 then .err "cbor not enough error"
      else if (h :: t).length > 29 then .err "cbor trailing data error"
      else .ok (.enterprise (networks (h &&& 0x0F)) ⟨kindOf h 4, t⟩) := by
  have e8 := tyne h 8 (by decide) (by show _ ≠ 8; omega)
  have e0 := tyne h 0 (by decide) (by show _ ≠ 0; omega)
  have e1 := tyne h 1 (by decide) (by show _ ≠ 1; omega)
  have e2 := tyne h 2 (by decide) (by show _ ≠ 2; omega)
  have e3 := tyne h 3 (by decide) (by show _ ≠ 3; omega)
  have e4 := tyne h 4 (by decide) (by show _ ≠ 4; omega)
  have e5 := tyne h 5 (by decide) (by show _ ≠ 5; omega)
  have e : (h &&& 0xF0) >>> 4 = 6 ∨ (h &&& 0xF0) >>> 4 = 7 := by
    rw [ty_eq h 6 (by decide), ty_eq h 7 (by decide)]; exact hty
  simp only [NewAddressFromBytes, e8, e0, e1, e2, e3, e4, e5, if_false, or_self]
  rw [if_pos e]
  by_cases h1 : (h :: t).length < 29
  · rw [if_pos h1, if_pos h1]
  rw [if_neg h1, if_neg h1]
  by_cases h2 : (h :: t).length > 29
  · rw [if_pos h2, if_pos h2]
  rw [if_neg h2, if_neg h2, readAddrCred_eq _ _ _ _ _ (Or.inl rfl), if_pos (by omega)]
  have ht : t.length = 28 := by simp only [List.length_cons] at h1 h2; omega
  have : (((h :: t) ++ spare).drop 1).take 28 = t := by simp [← ht]
  rw [this]; rfl

theorem parse_reward (strict : Bool) (h : UInt8) (t spare : Bytes) (hty : h.toNat / 16 = 14 ∨ h.toNat / 16 = 15) :
    NewAddressFromBytes strict (h :: t) spare =
      if (h :: t).length < 29 then .err "cbor not enough error"
      else if (h :: t).length > 29 then .err "cbor trailing data error"
      else .ok (.reward (networks (h &&& 0x0F)) ⟨kindOf h 4, t⟩) := by
  have e8 := tyne h 8 (by decide) (by show _ ≠ 8; omega)
  have e0 := tyne h 0 (by decide) (by show _ ≠ 0; omega)
  have e1 := tyne h 1 (by decide) (by show _ ≠ 1; omega)
  have e2 := tyne h 2 (by decide) (by show _ ≠ 2; omega)
  have e3 := tyne h 3 (by decide) (by show _ ≠ 3; omega)
  have e4 := tyne h 4 (by decide) (by show _ ≠ 4; omega)
  have e5 := tyne h 5 (by decide) (by show _ ≠ 5; omega)
  have e6 := tyne h 6 (by decide) (by show _ ≠ 6; omega)
  have e7 := tyne h 7 (by decide) (by show _ ≠ 7; omega)
  have e : (h &&& 0xF0) >>> 4 = 14 ∨ (h &&& 0xF0) >>> 4 = 15 := by
    rw [ty_eq h 14 (by decide), ty_eq h 15 (by decide)]; exact hty
  simp only [NewAddressFromBytes, e8, e0, e1, e2, e3, e4, e5, e6, e7, if_false, or_self]
  rw [if_pos e]
  by_cases h1 : (h :: t).length < 29
  · rw [if_pos h1, if_pos h1]
  rw [if_neg h1, if_neg h1]
  by_cases h2 : (h :: t).length > 29
  · rw [if_pos h2, if_pos h2]
  rw [if_neg h2, if_neg h2, readAddrCred_eq _ _ _ _ _ (Or.inl rfl), if_pos (by omega)]
  have ht : t.length = 28 := by simp only [List.length_cons] at h1 h2; omega
  have : (((h :: t) ++ spare).drop 1).take 28 = t := by simp [← ht]
  rw [this]; rfl

theorem parse_unknown (strict : Bool) (h : UInt8) (t spare : Bytes) (hty : 9 ≤ h.toNat / 16 ∧ h.toNat / 16 ≤ 13) :
    NewAddressFromBytes strict (h :: t) spare = .err "invalid/unsupported address type" := by
  have e8 := tyne h 8 (by decide) (by show _ ≠ 8; omega)
  have e0 := tyne h 0 (by decide) (by show _ ≠ 0; omega)
  have e1 := tyne h 1 (by decide) (by show _ ≠ 1; omega)
  have e2 := tyne h 2 (by decide) (by show _ ≠ 2; omega)
  have e3 := tyne h 3 (by decide) (by show _ ≠ 3; omega)
  have e4 := tyne h 4 (by decide) (by show _ ≠ 4; omega)
  have e5 := tyne h 5 (by decide) (by show _ ≠ 5; omega)
  have e6 := tyne h 6 (by decide) (by show _ ≠ 6; omega)
  have e7 := tyne h 7 (by decide) (by show _ ≠ 7; omega)
  have e14 := tyne h 14 (by decide) (by show _ ≠ 14; omega)
  have e15 := tyne h 15 (by decide) (by show _ ≠ 15; omega)
  simp only [NewAddressFromBytes, e8, e0, e1, e2, e3, e4, e5, e6, e7, e14, e15, if_false, or_self]

theorem parse_pointer (strict : Bool) (h : UInt8) (t spare : Bytes) (hty : h.toNat / 16 = 4 ∨ h.toNat / 16 = 5) :
    NewAddressFromBytes strict (h :: t) spare =
      if (h :: t).length < 32 then .err "cbor not enough error"
      else do
        let (slot, slotBytes) ← VariableNatDecode (t.drop 28)
        let (txIndex, txBytes) ← VariableNatDecode (t.drop (28 + slotBytes))
        let (certIndex, certBytes) ← VariableNatDecode (t.drop (28 + slotBytes + txBytes))
        if 29 + slotBytes + txBytes + certBytes < (h :: t).length then .err "cbor trailing data error"
        else return .pointer (networks (h &&& 0x0F)) ⟨kindOf h 4, t.take 28⟩ ⟨slot, txIndex, certIndex⟩ := by
  have e8 := tyne h 8 (by decide) (by show _ ≠ 8; omega)
  have e0 := tyne h 0 (by decide) (by show _ ≠ 0; omega)
  have e1 := tyne h 1 (by decide) (by show _ ≠ 1; omega)
  have e2 := tyne h 2 (by decide) (by show _ ≠ 2; omega)
  have e3 := tyne h 3 (by decide) (by show _ ≠ 3; omega)
  have e : (h &&& 0xF0) >>> 4 = 4 ∨ (h &&& 0xF0) >>> 4 = 5 := by
    rw [ty_eq h 4 (by decide), ty_eq h 5 (by decide)]; exact hty
  simp only [NewAddressFromBytes, e8, e0, e1, e2, e3, if_false, or_self]
  rw [if_pos e]
  by_cases h1 : (h :: t).length < 32
  · rw [if_pos h1, if_pos (by omega)]
  rw [if_neg h1, if_neg (by omega), readAddrCred_eq _ _ _ _ _ (Or.inl rfl), if_pos (by omega)]
  have : (((h :: t) ++ spare).drop 1).take 28 = t.take 28 := by
    simp only [List.cons_append, List.drop_succ_cons, List.drop_zero]
    simp only [List.length_cons] at h1
    rw [List.take_append_of_le_length (by omega)]
  rw [this]
  have d1 : (h :: t).drop 29 = t.drop 28 := by simp
  have d2 : ∀ k, (h :: t).drop (29 + k) = t.drop (28 + k) := by
    intro k; rw [show 29 + k = (28 + k) + 1 by omega, List.drop_succ_cons]
  have d3 : ∀ k l, (h :: t).drop (29 + k + l) = t.drop (28 + k + l) := by
    intro k l; rw [show 29 + k + l = (28 + k + l) + 1 by omega, List.drop_succ_cons]
  simp only [Res.ok_bind, d1, d2, d3]

/-- Result of parsing a well-encoded pointer address. -/
theorem parse_pointer_of (strict : Bool) (h : UInt8) (p b1 b2 b3 spare : Bytes)
    (hty : h.toNat / 16 = 4 ∨ h.toNat / 16 = 5) (hp : p.length = 28) (h1 : IsVlq b1) (h2 : IsVlq b2) (h3 : IsVlq b3) :
    ∃ s x c : UInt64, s.toNat = val128 b1 % 2 ^ 64 ∧ x.toNat = val128 b2 % 2 ^ 64 ∧ c.toNat = val128 b3 % 2 ^ 64 ∧
      NewAddressFromBytes strict (h :: (p ++ b1 ++ b2 ++ b3)) spare =
        .ok (.pointer (networks (h &&& 0x0F)) ⟨kindOf h 4, p⟩ ⟨s, x, c⟩) := by
  have l1 := List.length_pos_iff.2 (vlq_ne_nil h1)
  have l2 := List.length_pos_iff.2 (vlq_ne_nil h2)
  have l3 := List.length_pos_iff.2 (vlq_ne_nil h3)
  obtain ⟨s, e1, v1⟩ := decode_of (rest := b2 ++ b3) h1
  obtain ⟨x, e2, v2⟩ := decode_of (rest := b3) h2
  obtain ⟨c, e3, v3⟩ := decode_of (rest := []) h3
  refine ⟨s, x, c, v1, v2, v3, ?_⟩
  rw [parse_pointer _ _ _ _ hty, if_neg (by simp only [List.length_cons, List.length_append]; omega)]
  have d1 : (p ++ b1 ++ b2 ++ b3).drop 28 = b1 ++ (b2 ++ b3) := by
    rw [← hp]; simp
  have d2 : (p ++ b1 ++ b2 ++ b3).drop (28 + b1.length) = b2 ++ b3 := by
    rw [← List.drop_drop, d1, List.drop_left]
  have d3 : (p ++ b1 ++ b2 ++ b3).drop (28 + b1.length + b2.length) = b3 ++ [] := by
    rw [← List.drop_drop, d2, List.drop_left, List.append_nil]
  have d4 : (p ++ b1 ++ b2 ++ b3).take 28 = p := by
    rw [← hp]; simp
  rw [d1, e1]; simp only [Res.ok_bind]
  rw [d2, e2]; simp only [Res.ok_bind]
  rw [d3, e3]; simp only [Res.ok_bind]
  rw [if_neg (by simp only [List.length_cons, List.length_append]; omega), d4]
  rfl

theorem bind_ok {α β : Type} {x : Res α} {f : α → Res β} {b : β} (h : (x >>= f) = .ok b) : ∃ a, x = .ok a ∧ f a = .ok b := by
  cases x with
  | ok a => exact ⟨a, rfl, h⟩
  | err m => cases h
  | panic => cases h

theorem bind_panic {α β : Type} {x : Res α} {f : α → Res β} (h : (x >>= f) = .panic) : x = .panic ∨ ∃ a, x = .ok a ∧ f a = .panic := by
  cases x with
  | ok a => exact Or.inr ⟨a, rfl, h⟩
  | err m => cases h
  | panic => exact Or.inl rfl

theorem parse_pointer_ok (strict : Bool) (h : UInt8) (t spare : Bytes) (a : Address) (hty : h.toNat / 16 = 4 ∨ h.toNat / 16 = 5)
    (ha : NewAddressFromBytes strict (h :: t) spare = .ok a) :
    ∃ p b1 b2 b3, ∃ s x c : UInt64, t = p ++ b1 ++ b2 ++ b3 ∧ p.length = 28 ∧ IsVlq b1 ∧ IsVlq b2 ∧ IsVlq b3 ∧
      s.toNat = val128 b1 % 2 ^ 64 ∧ x.toNat = val128 b2 % 2 ^ 64 ∧ c.toNat = val128 b3 % 2 ^ 64 ∧
      a = .pointer (networks (h &&& 0x0F)) ⟨kindOf h 4, p⟩ ⟨s, x, c⟩ := by
  rw [parse_pointer _ _ _ _ hty] at ha
  split at ha
  · cases ha
  rename_i hl
  obtain ⟨⟨s, n1⟩, e1, ha⟩ := bind_ok ha
  obtain ⟨⟨x, n2⟩, e2, ha2⟩ := bind_ok ha
  obtain ⟨⟨c, n3⟩, e3, ha3⟩ := bind_ok ha2
  simp only at ha3
  by_cases htr : 29 + n1 + n2 + n3 < (h :: t).length
  · rw [if_pos htr] at ha3; cases ha3
  rw [if_neg htr] at ha3
  clear ha2 ha
  obtain ⟨b1, r1, d1, v1, rfl, w1⟩ := decode_ok e1
  have : t.drop (28 + b1.length) = r1 := by rw [← List.drop_drop, d1, List.drop_left]
  rw [this] at e2
  obtain ⟨b2, r2, d2, v2, rfl, w2⟩ := decode_ok e2
  have : t.drop (28 + b1.length + b2.length) = r2 := by rw [← List.drop_drop, this, d2, List.drop_left]
  rw [this] at e3
  obtain ⟨b3, r3, d3, v3, rfl, w3⟩ := decode_ok e3
  simp only [List.length_cons] at hl htr
  have ht : t = t.take 28 ++ (b1 ++ (b2 ++ (b3 ++ r3))) := by rw [← d3, ← d2, ← d1, List.take_append_drop]
  have hr3 : r3 = [] := by
    have := congrArg List.length ht
    simp only [List.length_append, List.length_take] at this
    have : r3.length = 0 := by omega
    exact List.length_eq_zero_iff.1 this
  subst hr3
  refine ⟨t.take 28, b1, b2, b3, s, x, c, ?_, ?_, v1, v2, v3, w1, w2, w3, ?_⟩
  · simp only [List.append_nil] at ht; simp only [List.append_assoc]; exact ht
  · rw [List.length_take]; omega
  · cases ha3; rfl

theorem parse_pointer_not_panic (strict : Bool) (h : UInt8) (t spare : Bytes) (hty : h.toNat / 16 = 4 ∨ h.toNat / 16 = 5) :
    NewAddressFromBytes strict (h :: t) spare ≠ .panic := by
  rw [parse_pointer _ _ _ _ hty]
  split
  · intro h; cases h
  intro hp
  rcases bind_panic hp with hp | ⟨⟨s, n1⟩, e1, hp⟩
  · exact decode_not_panic _ hp
  rcases bind_panic hp with hp | ⟨⟨s, n1⟩, e1, hp⟩
  · exact decode_not_panic _ hp
  rcases bind_panic hp with hp | ⟨⟨s, n1⟩, e1, hp⟩
  · exact decode_not_panic _ hp
  simp only at hp
  split at hp <;> cases hp

end Cardano.Addr
