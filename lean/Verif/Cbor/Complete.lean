import Verif.Cbor.Lemmas
/-!
# The reader does not depend on its work bound or on what follows the item
-/
set_option autoImplicit false

namespace Cardano.Cbor

theorem readHead_append (bs t : Bytes) (m ai n : Nat) (r : Bytes) (h : readHead bs = some (m, ai, n, r)) :
    readHead (bs ++ t) = some (m, ai, n, r ++ t) := by
  cases bs with
  | nil => cases h
  | cons b bs =>
    simp only [readHead, List.cons_append] at h ⊢
    by_cases h1 : b.toNat % 32 < 24
    · rw [if_pos h1] at h ⊢
      injection h with h; injection h with a h; injection h with b' h; injection h with c d
      subst a b' c d; rfl
    · rw [if_neg h1] at h ⊢
      by_cases h2 : b.toNat % 32 < 28
      · rw [if_pos h2] at h ⊢
        by_cases h3 : bs.length < 2 ^ (b.toNat % 32 - 24)
        · rw [if_pos h3] at h; cases h
        · rw [if_neg h3] at h
          rw [if_neg (by rw [List.length_append]; omega)]
          injection h with h; injection h with a h; injection h with b' h; injection h with c d
          subst a b' c d
          rw [List.take_append_of_le_length (by omega), List.drop_append_of_le_length (by omega)]
      · rw [if_neg h2] at h ⊢
        by_cases h3 : b.toNat % 32 = 31
        · rw [if_pos h3] at h ⊢
          injection h with h; injection h with a h; injection h with b' h; injection h with c d
          subst a b' c d; rfl
        · rw [if_neg h3] at h; cases h

theorem takeExactly_more (n : Nat) (bs t b r : Bytes) (h : takeExactly n bs = some (b, r)) :
    takeExactly n (bs ++ t) = some (b, r ++ t) := by
  unfold takeExactly at h ⊢
  by_cases hl : bs.length < n
  · rw [if_pos hl] at h; cases h
  · rw [if_neg hl] at h
    rw [if_neg (by rw [List.length_append]; omega)]
    injection h with h; injection h with a b'
    subst a b'
    rw [List.take_append_of_le_length (by omega), List.drop_append_of_le_length (by omega)]

theorem readChunks_more (major : Nat) (f : Nat) : ∀ (f' : Nat) (bs t b r : Bytes), f ≤ f' → readChunks major f bs = some (b, r) →
    readChunks major f' (bs ++ t) = some (b, r ++ t) := by
  induction f with
  | zero => intro f' bs t b r _ h; cases h
  | succ f ih =>
    intro f' bs t b r hf h
    obtain ⟨f', rfl⟩ : ∃ g, f' = g + 1 := ⟨f' - 1, by omega⟩
    have key : ∀ bs : Bytes, (∀ x, bs ≠ 0xff :: x) → (∀ x, bs ++ t ≠ 0xff :: x) →
        (readChunks major (f + 1) bs = some (b, r)) → readChunks major (f' + 1) (bs ++ t) = some (b, r ++ t) := by
      intro bs hb hb' h
      rw [readChunks] at h ⊢
      rotate_left
      · exact hb'
      · exact hb
      cases e : readHead bs with
      | none => rw [e] at h; cases h
      | some v =>
        obtain ⟨m, ai, n, r1⟩ := v
        rw [e] at h; rw [readHead_append _ _ _ _ _ _ e]
        simp only at h ⊢
        by_cases hm : m ≠ major ∨ ai = 31
        · rw [if_pos hm] at h; cases h
        · rw [if_neg hm] at h ⊢
          cases e2 : takeExactly n r1 with
          | none => rw [e2] at h; cases h
          | some v =>
            obtain ⟨chunk, r2⟩ := v
            rw [e2] at h; rw [takeExactly_more _ _ _ _ _ e2]
            simp only at h ⊢
            cases e3 : readChunks major f r2 with
            | none => rw [e3] at h; cases h
            | some v =>
              obtain ⟨more, r3⟩ := v
              rw [e3] at h; rw [ih f' r2 t more r3 (by omega) e3]
              simp only at h ⊢
              injection h with h; injection h with a b'
              subst a b'; rfl
    cases bs with
    | nil => simp [readChunks, readHead] at h
    | cons c cs =>
      by_cases hc : c = 0xff
      · subst hc
        simp only [readChunks, List.cons_append] at h ⊢
        injection h with h; injection h with a b'
        subst a b'; rfl
      · exact key (c :: cs) (fun x e => hc (List.cons.inj e).1) (fun x e => hc (List.cons.inj e).1) h

/-- `many'` extends `many`. -/
def Ext (many many' : Option Nat → Bytes → Option (List Item × Bytes)) : Prop :=
  ∀ o bs xs r t, many o bs = some (xs, r) → many' o (bs ++ t) = some (xs, r ++ t)

theorem readItemWith_more {f f' : Nat} {many many' : Option Nat → Bytes → Option (List Item × Bytes)} (hf : f ≤ f') (hm : Ext many many')
    (bs t : Bytes) (x : Item) (r : Bytes) (h : readItemWith f many bs = some (x, r)) :
    readItemWith f' many' (bs ++ t) = some (x, r ++ t) := by
  unfold readItemWith at h ⊢
  cases e : readHead bs with
  | none => rw [e] at h; cases h
  | some v =>
    obtain ⟨m, ai, n, r1⟩ := v
    rw [e] at h; rw [readHead_append _ _ _ _ _ _ e]
    simp only at h ⊢
    have str : ∀ (M : Nat) (c : Bytes → Item), ((if ai = 31 then readChunks M f r1 else takeExactly n r1).map fun (p : Bytes × Bytes) => (c p.1, p.2)) = some (x, r) →
        ((if ai = 31 then readChunks M f' (r1 ++ t) else takeExactly n (r1 ++ t)).map fun (p : Bytes × Bytes) => (c p.1, p.2)) = some (x, r ++ t) := by
      intro M c h
      rw [Option.map_eq_some_iff] at h
      obtain ⟨⟨b, r2⟩, h1, h2⟩ := h
      injection h2 with a b'
      subst a b'
      by_cases h31 : ai = 31
      · rw [if_pos h31] at h1 ⊢
        rw [readChunks_more _ _ f' _ t _ _ hf h1]; rfl
      · rw [if_neg h31] at h1 ⊢
        rw [takeExactly_more _ _ t _ _ h1]; rfl
    match m with
    | 0 =>
      simp only at h ⊢
      by_cases h31 : ai = 31
      · rw [if_pos h31] at h; cases h
      · rw [if_neg h31] at h ⊢
        injection h with h; injection h with a b'; subst a b'; rfl
    | 1 =>
      simp only at h ⊢
      by_cases h31 : ai = 31
      · rw [if_pos h31] at h; cases h
      · rw [if_neg h31] at h ⊢
        injection h with h; injection h with a b'; subst a b'; rfl
    | 2 => exact str 2 .bytes h
    | 3 => exact str 3 .text h
    | 4 =>
      simp only at h ⊢
      rw [Option.map_eq_some_iff] at h
      obtain ⟨⟨b, r2⟩, h1, h2⟩ := h
      injection h2 with a b'
      subst a b'
      rw [hm _ _ _ _ t h1]; rfl
    | 5 =>
      simp only at h ⊢
      rw [Option.bind_eq_some_iff] at h
      obtain ⟨⟨b, r2⟩, h1, h2⟩ := h
      rw [hm _ _ _ _ t h1]
      simp only [Option.bind_some] at h2 ⊢
      by_cases hp : b.length % 2 = 0
      · rw [if_pos hp] at h2 ⊢
        injection h2 with h; injection h with a b'; subst a b'; rfl
      · rw [if_neg hp] at h2; cases h2
    | 6 =>
      simp only at h ⊢
      by_cases h31 : ai = 31
      · rw [if_pos h31] at h; cases h
      · rw [if_neg h31] at h ⊢
        rw [Option.bind_eq_some_iff] at h
        obtain ⟨⟨b, r2⟩, h1, h2⟩ := h
        rw [hm _ _ _ _ t h1]
        simp only [Option.bind_some] at h2 ⊢
        match b with
        | [] => cases h2
        | [y] => injection h2 with h; injection h with a b'; subst a b'; rfl
        | _ :: _ :: _ => cases h2
    | (k + 7) =>
      simp only at h ⊢
      by_cases h31 : ai = 31
      · rw [if_pos h31] at h; cases h
      · rw [if_neg h31] at h ⊢
        by_cases h24 : ai < 24
        · rw [if_pos h24] at h ⊢
          injection h with h; injection h with a b'; subst a b'; rfl
        · rw [if_neg h24] at h ⊢
          by_cases h24' : ai = 24
          · rw [if_pos h24'] at h ⊢
            by_cases h32 : n < 32
            · rw [if_pos h32] at h; cases h
            · rw [if_neg h32] at h ⊢
              injection h with h; injection h with a b'; subst a b'; rfl
          · rw [if_neg h24'] at h ⊢
            injection h with h; injection h with a b'; subst a b'; rfl

theorem readMany_more (f : Nat) : ∀ f', f ≤ f' → Ext (readMany f) (readMany f') := by
  induction f with
  | zero => intro f' _ o bs xs r t h; cases o <;> cases h
  | succ f ih =>
    intro f' hf
    obtain ⟨f', rfl⟩ : ∃ g, f' = g + 1 := ⟨f' - 1, by omega⟩
    have hE := ih f' (by omega)
    intro o bs xs r t h
    match o with
    | some 0 =>
      simp only [readMany] at h ⊢
      injection h with h; injection h with a b'; subst a b'; rfl
    | some (n + 1) =>
      rw [readMany] at h ⊢
      cases e : readItemWith f (readMany f) bs with
      | none => rw [e] at h; cases h
      | some v =>
        obtain ⟨x, r1⟩ := v
        rw [e] at h; rw [readItemWith_more (by omega) hE _ t _ _ e]
        simp only at h ⊢
        cases e2 : readMany f (some n) r1 with
        | none => rw [e2] at h; cases h
        | some v =>
          obtain ⟨ys, r2⟩ := v
          rw [e2] at h; rw [hE _ _ _ _ t e2]
          simp only at h ⊢
          injection h with h; injection h with a b'; subst a b'; rfl
    | none =>
      have key : ∀ bs : Bytes, (∀ x, bs ≠ 0xff :: x) → (∀ x, bs ++ t ≠ 0xff :: x) →
          (readMany (f + 1) none bs = some (xs, r)) → readMany (f' + 1) none (bs ++ t) = some (xs, r ++ t) := by
        intro bs hb hb' h
        rw [readMany] at h ⊢
        rotate_left
        · exact hb'
        · exact hb
        cases e : readItemWith f (readMany f) bs with
        | none => rw [e] at h; cases h
        | some v =>
          obtain ⟨x, r1⟩ := v
          rw [e] at h; rw [readItemWith_more (by omega) hE _ t _ _ e]
          simp only at h ⊢
          cases e2 : readMany f none r1 with
          | none => rw [e2] at h; cases h
          | some v =>
            obtain ⟨ys, r2⟩ := v
            rw [e2] at h; rw [hE _ _ _ _ t e2]
            simp only at h ⊢
            injection h with h; injection h with a b'; subst a b'; rfl
      cases bs with
      | nil => simp [readMany, readItemWith, readHead] at h
      | cons c cs =>
        by_cases hc : c = 0xff
        · subst hc
          simp only [readMany, List.cons_append] at h ⊢
          injection h with h; injection h with a b'; subst a b'; rfl
        · exact key (c :: cs) (fun x e => hc (List.cons.inj e).1) (fun x e => hc (List.cons.inj e).1) h

/-- Whatever the reader accepts as exactly one item is an encoding in the strong sense: it is read back in front of any
other bytes. -/
theorem enc_of_parse (b : Bytes) (x : Item) (h : parse b = some x) : Enc b x := by
  unfold parse parseFirst at h
  have h' : readItem b.length b = some (x, []) := by
    cases e : readItem b.length b with
    | none => rw [e] at h; cases h
    | some v =>
      obtain ⟨y, r⟩ := v
      rw [e] at h
      cases r with
      | nil => injection h with h; subst h; rfl
      | cons _ _ => cases h
  refine ⟨?_, fun f hf rest => ?_⟩
  · cases b with
    | nil => simp [readItem, readItemWith, readHead] at h'
    | cons _ _ => simp
  · have := readItemWith_more (f := b.length) (f' := f) hf (readMany_more _ _ hf) b rest x [] h'
    simpa [readItem] using this

end Cardano.Cbor
