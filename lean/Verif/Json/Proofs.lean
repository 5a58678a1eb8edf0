import Verif.Json.Model
/-!
# The JSON reader reads exactly the JSON texts
-/
set_option autoImplicit false

namespace Cardano.Json

/-! ## Whitespace -/

theorem isWs_iff (c : UInt8) : isWs c = true ↔ (c = 0x20 ∨ c = 0x09 ∨ c = 0x0a ∨ c = 0x0d) := by
  simp [isWs, or_assoc]

theorem skipWs_split (s : Bytes) : ∃ w, s = w ++ skipWs s ∧ Ws w := by
  induction s with
  | nil => exact ⟨[], rfl, by intro c hc; cases hc⟩
  | cons c s ih =>
    obtain ⟨w, h, hw⟩ := ih
    rw [skipWs]
    split
    · rename_i hc
      refine ⟨c :: w, by rw [List.cons_append, ← h], ?_⟩
      intro x hx
      rcases List.mem_cons.1 hx with rfl | hx
      · exact (isWs_iff _).1 hc
      · exact hw x hx
    · exact ⟨[], rfl, by intro c hc; cases hc⟩

theorem skipWs_append (w r : Bytes) (hw : Ws w) : skipWs (w ++ r) = skipWs r := by
  induction w with
  | nil => rfl
  | cons c w ih =>
    rw [List.cons_append, skipWs, if_pos ((isWs_iff c).2 (hw c (List.mem_cons_self ..)))]
    exact ih (fun x hx => hw x (List.mem_cons_of_mem _ hx))

theorem skipWs_cons (c : UInt8) (r : Bytes) (h : isWs c = false) : skipWs (c :: r) = c :: r := by
  rw [skipWs, if_neg (by simp [h])]

theorem skipWs_ws (w : Bytes) (hw : Ws w) : skipWs w = [] := by
  have := skipWs_append w [] hw
  rw [List.append_nil] at this
  rw [this]; rfl

theorem skipWs_nil_iff (r : Bytes) : skipWs r = [] ↔ Ws r := by
  constructor
  · intro h
    obtain ⟨w, h1, h2⟩ := skipWs_split r
    rw [h, List.append_nil] at h1
    exact h1 ▸ h2
  · exact skipWs_ws r

theorem skipWs_length (s : Bytes) : (skipWs s).length ≤ s.length := by
  obtain ⟨w, h, _⟩ := skipWs_split s
  have := congrArg List.length h
  rw [List.length_append] at this
  omega

/-! ## Numbers -/

theorem isDigit_iff (c : UInt8) : isDigit c = true ↔ Digit c := by
  simp only [isDigit, Digit, Bool.and_eq_true, decide_eq_true_eq, UInt8.le_iff_toNat_le]
  rfl

/-- The first character, if any, is not a digit. -/
def NoDigit (r : Bytes) : Prop := ∀ c r', r = c :: r' → ¬ Digit c

theorem spanDigits_spec (s : Bytes) : s = (spanDigits s).1 ++ (spanDigits s).2 ∧ (∀ x ∈ (spanDigits s).1, Digit x) ∧ NoDigit (spanDigits s).2 := by
  induction s with
  | nil => exact ⟨rfl, by simp [spanDigits], by intro c r' h; simp [spanDigits] at h⟩
  | cons c s ih =>
    obtain ⟨h1, h2, h3⟩ := ih
    rw [spanDigits]
    split
    · rename_i hc
      refine ⟨by rw [List.cons_append, ← h1], ?_, h3⟩
      intro x hx
      rcases List.mem_cons.1 hx with rfl | hx
      · exact (isDigit_iff _).1 hc
      · exact h2 x hx
    · rename_i hc
      refine ⟨rfl, by simp, ?_⟩
      intro c' r' h
      cases h
      rwa [isDigit_iff] at hc

theorem spanDigits_append (d r : Bytes) (hd : ∀ x ∈ d, Digit x) (hr : NoDigit r) : spanDigits (d ++ r) = (d, r) := by
  induction d with
  | nil =>
    cases r with
    | nil => rfl
    | cons c r =>
      rw [List.nil_append, spanDigits, if_neg]
      rw [isDigit_iff]
      exact hr c r rfl
  | cons c d ih =>
    have := ih (fun x hx => hd x (List.mem_cons_of_mem _ hx))
    rw [List.cons_append, spanDigits, if_pos ((isDigit_iff c).2 (hd c (List.mem_cons_self ..))), this]

/-- What may follow a value: nothing, whitespace, a comma or a closing bracket. -/
def Stop (r : Bytes) : Prop :=
  ∀ c r', r = c :: r' → c = 0x20 ∨ c = 0x09 ∨ c = 0x0a ∨ c = 0x0d ∨ c = 0x2c ∨ c = 0x5d ∨ c = 0x7d

theorem stop_ws (w : Bytes) (r : Bytes) (hw : Ws w) (hr : Stop r) : Stop (w ++ r) := by
  intro c r' h
  cases w with
  | nil => exact hr c r' h
  | cons x w =>
    rw [List.cons_append] at h
    have hx := hw x (List.mem_cons_self ..)
    cases h
    rcases hx with h | h | h | h <;> simp [h]

theorem stop_nil : Stop [] := by intro c r' h; cases h
theorem stop_comma (r : Bytes) : Stop (0x2c :: r) := by intro c r' h; cases h; simp
theorem stop_bracket (r : Bytes) : Stop (0x5d :: r) := by intro c r' h; cases h; simp
theorem stop_brace (r : Bytes) : Stop (0x7d :: r) := by intro c r' h; cases h; simp

theorem stop_noDigit (r : Bytes) (h : Stop r) : NoDigit r := by
  intro c r' e
  have := h c r' e
  unfold Digit
  rcases this with h | h | h | h | h | h | h <;> subst h <;> decide

theorem scanFrac_sound (s t r : Bytes) (h : scanFrac s = some (t, r)) : s = t ++ r ∧ FracPart t := by
  unfold scanFrac at h
  cases s with
  | nil => simp at h; obtain ⟨rfl, rfl⟩ := h; exact ⟨rfl, Or.inl rfl⟩
  | cons c s =>
    dsimp only at h
    split at h
    · rename_i hc
      split at h
      · exact absurd h (by simp)
      · rename_i hne
        simp only [Option.some.injEq, Prod.mk.injEq] at h
        obtain ⟨rfl, rfl⟩ := h
        have hs := spanDigits_spec s
        refine ⟨by rw [List.cons_append, ← hs.1], Or.inr ⟨_, by rw [hc], hne, hs.2.1⟩⟩
    · simp only [Option.some.injEq, Prod.mk.injEq] at h
      obtain ⟨rfl, rfl⟩ := h
      exact ⟨rfl, Or.inl rfl⟩

/-- What may follow the exponent-free part. -/
def NoFrac (r : Bytes) : Prop := ∀ c r', r = c :: r' → ¬ Digit c ∧ c ≠ 46

theorem scanFrac_complete (t r : Bytes) (h : FracPart t) (hr : NoFrac r) : scanFrac (t ++ r) = some (t, r) := by
  rcases h with rfl | ⟨d, rfl, hne, hd⟩
  · cases r with
    | nil => rfl
    | cons c r =>
      rw [List.nil_append, scanFrac, if_neg (hr c r rfl).2]
  · rw [List.cons_append]
    unfold scanFrac
    have := spanDigits_append d r hd (fun c r' e => (hr c r' e).1)
    simp [this, hne]

theorem scanExp_sound (s t r : Bytes) (h : scanExp s = some (t, r)) : s = t ++ r ∧ ExpPart t := by
  unfold scanExp at h
  cases s with
  | nil => simp at h; obtain ⟨rfl, rfl⟩ := h; exact ⟨rfl, Or.inl rfl⟩
  | cons c s =>
    dsimp only at h
    split at h
    · rename_i hc
      cases s with
      | nil => simp [spanDigits] at h
      | cons x s =>
        dsimp only at h
        by_cases hx : x = 43 ∨ x = 45
        · simp only [if_pos hx] at h
          split at h
          · exact absurd h (by simp)
          · rename_i hne
            simp only [Option.some.injEq, Prod.mk.injEq] at h
            obtain ⟨rfl, rfl⟩ := h
            have hs := spanDigits_spec s
            refine ⟨by simp [← hs.1], Or.inr ⟨c, [x], _, rfl, hc, ?_, hne, hs.2.1⟩⟩
            rcases hx with rfl | rfl <;> simp
        · simp only [if_neg hx] at h
          split at h
          · exact absurd h (by simp)
          · rename_i hne
            simp only [Option.some.injEq, Prod.mk.injEq] at h
            obtain ⟨rfl, rfl⟩ := h
            have hs := spanDigits_spec (x :: s)
            exact ⟨by simp [← hs.1], Or.inr ⟨c, [], _, rfl, hc, Or.inl rfl, hne, hs.2.1⟩⟩
    · simp only [Option.some.injEq, Prod.mk.injEq] at h
      obtain ⟨rfl, rfl⟩ := h
      exact ⟨rfl, Or.inl rfl⟩

theorem digit_not_sign (x : UInt8) (h : Digit x) : ¬ (x = 43 ∨ x = 45) := by
  rintro (rfl | rfl) <;> revert h <;> unfold Digit <;> decide

theorem scanExp_complete (t r : Bytes) (h : ExpPart t) (hr : Stop r) : scanExp (t ++ r) = some (t, r) := by
  rcases h with rfl | ⟨e, sign, d, rfl, he, hs, hne, hd⟩
  · cases r with
    | nil => rfl
    | cons c r =>
      rw [List.nil_append]
      unfold scanExp
      have : ¬ (c = 101 ∨ c = 69) := by
        have := hr c r rfl
        rcases this with h | h | h | h | h | h | h <;> subst h <;> decide
      simp [this]
  · have hspan := spanDigits_append d r hd (stop_noDigit r hr)
    rw [List.cons_append]
    unfold scanExp
    dsimp only
    rw [if_pos he]
    rcases hs with rfl | rfl | rfl
    · cases d with
      | nil => exact absurd rfl hne
      | cons x d =>
        have := digit_not_sign x (hd x (List.mem_cons_self ..))
        rw [List.cons_append] at hspan
        simp [this, hspan]
    · simp [hspan, hne]
    · simp [hspan, hne]

theorem scanInt_sound (s t r : Bytes) (h : scanInt s = some (t, r)) : s = t ++ r ∧ IntPart t := by
  unfold scanInt at h
  cases s with
  | nil => simp at h
  | cons c s =>
    dsimp only at h
    split at h
    · rename_i hc
      simp only [Option.some.injEq, Prod.mk.injEq] at h
      obtain ⟨rfl, rfl⟩ := h
      exact ⟨by rw [hc]; rfl, Or.inl rfl⟩
    · rename_i hc
      split at h
      · rename_i hd
        simp only [Option.some.injEq, Prod.mk.injEq] at h
        obtain ⟨rfl, rfl⟩ := h
        have hs := spanDigits_spec s
        exact ⟨by rw [List.cons_append, ← hs.1], Or.inr ⟨c, _, rfl, (isDigit_iff c).1 hd, hc, hs.2.1⟩⟩
      · exact absurd h (by simp)

theorem scanInt_complete (t r : Bytes) (h : IntPart t) (hr : NoDigit r) : scanInt (t ++ r) = some (t, r) := by
  rcases h with rfl | ⟨c, d, rfl, hc, h0, hd⟩
  · rfl
  · rw [List.cons_append]
    unfold scanInt
    simp [h0, (isDigit_iff c).2 hc, spanDigits_append d r hd hr]

theorem scanNum_sound (s t r : Bytes) (h : scanNum s = some (t, r)) : s = t ++ r ∧ NumText t := by
  have key : ∀ minus s1, s = minus ++ s1 → (minus = [] ∨ minus = [45]) →
      (match scanInt s1 with
        | none => none
        | some (i, s2) => match scanFrac s2 with
          | none => none
          | some (f, s3) => match scanExp s3 with
            | none => none
            | some (e, s4) => some (minus ++ (i ++ (f ++ e)), s4)) = some (t, r) → s = t ++ r ∧ NumText t := by
    intro minus s1 hs hm h
    cases hi : scanInt s1 with
    | none => simp [hi] at h
    | some p =>
      obtain ⟨i, s2⟩ := p
      simp only [hi] at h
      cases hf : scanFrac s2 with
      | none => simp [hf] at h
      | some p =>
        obtain ⟨f, s3⟩ := p
        simp only [hf] at h
        cases he : scanExp s3 with
        | none => simp [he] at h
        | some p =>
          obtain ⟨e, s4⟩ := p
          simp only [he, Option.some.injEq, Prod.mk.injEq] at h
          obtain ⟨rfl, rfl⟩ := h
          have h1 := scanInt_sound _ _ _ hi
          have h2 := scanFrac_sound _ _ _ hf
          have h3 := scanExp_sound _ _ _ he
          refine ⟨?_, minus, i, f, e, rfl, hm, h1.2, h2.2, h3.2⟩
          rw [hs, h1.1, h2.1, h3.1]
          simp only [List.append_assoc]
  unfold scanNum at h
  cases s with
  | nil => exact key [] [] rfl (Or.inl rfl) h
  | cons c s =>
    by_cases hc : c = 45
    · simp only [if_pos hc] at h
      exact key [c] s rfl (Or.inr (by rw [hc])) h
    · simp only [if_neg hc] at h
      exact key [] (c :: s) rfl (Or.inl rfl) h

theorem intPart_head (i : Bytes) (h : IntPart i) : ∃ c r, i = c :: r ∧ Digit c := by
  rcases h with rfl | ⟨c, r, rfl, hc, _⟩
  · exact ⟨48, [], rfl, by unfold Digit; decide⟩
  · exact ⟨c, r, rfl, hc⟩

theorem exp_noFrac (e r : Bytes) (h : ExpPart e) (hr : Stop r) : NoFrac (e ++ r) := by
  intro c r' eq
  rcases h with rfl | ⟨x, sign, d, rfl, hx, _⟩
  · have := hr c r' eq
    unfold Digit
    rcases this with h | h | h | h | h | h | h <;> subst h <;> decide
  · rw [List.cons_append] at eq
    cases eq
    unfold Digit
    rcases hx with rfl | rfl <;> decide

theorem frac_noDigit (f r : Bytes) (h : FracPart f) (hr : NoFrac r) : NoDigit (f ++ r) := by
  intro c r' eq
  rcases h with rfl | ⟨d, rfl, _⟩
  · exact (hr c r' eq).1
  · rw [List.cons_append] at eq
    cases eq
    unfold Digit
    decide

theorem scanNum_complete (t r : Bytes) (h : NumText t) (hr : Stop r) : scanNum (t ++ r) = some (t, r) := by
  obtain ⟨minus, i, f, e, rfl, hm, hi, hf, he⟩ := h
  have nf := exp_noFrac e r he hr
  have h1 := scanInt_complete i (f ++ (e ++ r)) hi (frac_noDigit f _ hf nf)
  have h2 := scanFrac_complete f (e ++ r) hf nf
  have h3 := scanExp_complete e r he hr
  unfold scanNum
  rcases hm with rfl | rfl
  · obtain ⟨c, i', rfl, hc⟩ := intPart_head i hi
    have hne : c ≠ 45 := by rintro rfl; revert hc; unfold Digit; decide
    simp only [List.append_assoc, List.nil_append, List.cons_append] at h1 ⊢
    simp only [if_neg hne, h1, h2, h3, List.nil_append, List.cons_append]
  · simp only [List.append_assoc, List.cons_append, List.nil_append, if_true, h1, h2, h3]

theorem numText_head (t : Bytes) (h : NumText t) : ∃ c r, t = c :: r ∧ (c = 45 ∨ Digit c) := by
  obtain ⟨minus, i, f, e, rfl, hm, hi, hf, he⟩ := h
  obtain ⟨c, r, rfl, hc⟩ := intPart_head i hi
  rcases hm with rfl | rfl
  · exact ⟨c, _, rfl, Or.inr hc⟩
  · exact ⟨45, _, rfl, Or.inl rfl⟩

/-! ## Strings -/

/-- What `scanUnits` reads. -/
inductive UnitText : List StrUnit → Bytes → Prop
  | nil : UnitText [] []
  | plain (c : UInt8) (us : List StrUnit) (t : Bytes) (h0 : 0x20 ≤ c.toNat) (h1 : c ≠ 0x22) (h2 : c ≠ 0x5c) (h : UnitText us t) :
      UnitText (.byte c :: us) (c :: t)
  | esc (c x : UInt8) (us : List StrUnit) (t : Bytes) (hc : escChar c = some x) (h : UnitText us t) : UnitText (.byte x :: us) (0x5c :: c :: t)
  | unicode (u : Bytes) (n : Nat) (us : List StrUnit) (t : Bytes) (hu : Hex4 u n) (h : UnitText us t) :
      UnitText (.u16 n :: us) (0x5c :: 0x75 :: (u ++ t))

theorem hex4_iff (a b c d : UInt8) (n : Nat) : hex4 a b c d = some n ↔ Hex4 [a, b, c, d] n := by
  unfold hex4 Hex4
  constructor
  · intro h
    split at h
    · rename_i i j k l h1 h2 h3 h4
      exact ⟨a, b, c, d, i, j, k, l, rfl, h1, h2, h3, h4, (Option.some.inj h).symm⟩
    · exact absurd h (by simp)
  · rintro ⟨a', b', c', d', i, j, k, l, e, h1, h2, h3, h4, rfl⟩
    simp only [List.cons.injEq, and_true] at e
    obtain ⟨rfl, rfl, rfl, rfl⟩ := e
    simp [h1, h2, h3, h4]

theorem hex4_length (u : Bytes) (n : Nat) (h : Hex4 u n) : ∃ a b c d, u = [a, b, c, d] ∧ hex4 a b c d = some n := by
  have h' := h
  obtain ⟨a, b, c, d, i, j, k, l, rfl, _⟩ := h
  exact ⟨a, b, c, d, rfl, (hex4_iff a b c d n).2 h'⟩

theorem escChar_u : escChar 0x75 = none := by decide

theorem scanUnits_quote (r : Bytes) : scanUnits (0x22 :: r) = some ([], r) := by rw [scanUnits.eq_def]; rfl

theorem scanUnits_plain (c : UInt8) (r : Bytes) (h1 : c ≠ 0x22) (h2 : c ≠ 0x5c) :
    scanUnits (c :: r) = if c < 0x20 then none else (scanUnits r).map fun p => (.byte c :: p.1, p.2) := by
  rw [scanUnits.eq_def]
  simp only [if_neg h1, if_neg h2]

theorem scanUnits_esc (e : UInt8) (r : Bytes) (h : e ≠ 0x75) :
    scanUnits (0x5c :: e :: r) = match escChar e with
      | none => none
      | some x => (scanUnits r).map fun p => (.byte x :: p.1, p.2) := by
  rw [scanUnits.eq_def]
  simp only [if_neg h, if_neg (show (0x5c : UInt8) ≠ 0x22 by decide), if_true]
  cases escChar e <;> rfl

theorem scanUnits_u (a b c d : UInt8) (r : Bytes) :
    scanUnits (0x5c :: 0x75 :: a :: b :: c :: d :: r) = match hex4 a b c d with
      | none => none
      | some n => (scanUnits r).map fun p => (.u16 n :: p.1, p.2) := by
  rw [scanUnits.eq_def]
  simp only [if_neg (show (0x5c : UInt8) ≠ 0x22 by decide), if_true]
  cases hex4 a b c d <;> rfl

theorem scanUnits_complete (us : List StrUnit) (t r : Bytes) (h : UnitText us t) : scanUnits (t ++ 0x22 :: r) = some (us, r) := by
  induction h with
  | nil => exact scanUnits_quote r
  | plain c us t h0 h1 h2 h ih =>
    rw [List.cons_append, scanUnits_plain _ _ h1 h2, if_neg (by rw [UInt8.lt_iff_toNat_lt]; show ¬ _ < 32; omega), ih]
    rfl
  | esc c x us t hc h ih =>
    have : c ≠ 0x75 := by rintro rfl; rw [escChar_u] at hc; cases hc
    rw [List.cons_append, List.cons_append, scanUnits_esc _ _ this, hc]
    dsimp only
    rw [ih]
    rfl
  | unicode u n us t hu h ih =>
    obtain ⟨a, b, c, d, rfl, hx⟩ := hex4_length u n hu
    simp only [List.cons_append, List.nil_append]
    rw [scanUnits_u, hx]
    dsimp only
    rw [ih]
    rfl

theorem scanUnits_sound : ∀ (k : Nat) (s : Bytes), s.length ≤ k → ∀ us r, scanUnits s = some (us, r) → ∃ t, s = t ++ 0x22 :: r ∧ UnitText us t := by
  intro k
  induction k with
  | zero =>
    intro s hs us r h
    cases s with
    | nil => simp [scanUnits] at h
    | cons c s => simp at hs
  | succ k ih =>
    intro s hs us r h
    cases s with
    | nil => simp [scanUnits] at h
    | cons c s =>
      rw [List.length_cons] at hs
      rw [scanUnits.eq_def] at h
      dsimp only at h
      split at h
      · rename_i hc
        simp only [Option.some.injEq, Prod.mk.injEq] at h
        obtain ⟨rfl, rfl⟩ := h
        exact ⟨[], by rw [hc]; rfl, .nil⟩
      rename_i hq
      split at h
      · rename_i hb
        cases s with
        | nil => simp at h
        | cons e s =>
          rw [List.length_cons] at hs
          dsimp only at h
          split at h
          · rename_i he
            split at h
            · rename_i a b c' d s'
              simp only [List.length_cons] at hs
              split at h
              · exact absurd h (by simp)
              · rename_i n hn
                obtain ⟨⟨us', r'⟩, h1, h2⟩ := Option.map_eq_some_iff.1 h
                simp only [Prod.mk.injEq] at h2
                obtain ⟨rfl, rfl⟩ := h2
                obtain ⟨t, ht, hu⟩ := ih s' (by omega) us' r' h1
                refine ⟨0x5c :: 0x75 :: ([a, b, c', d] ++ t), by rw [hb, he, ht]; rfl, .unicode _ n us' t ((hex4_iff ..).1 hn) hu⟩
            · exact absurd h (by simp)
          · split at h
            · exact absurd h (by simp)
            · rename_i x hx
              obtain ⟨⟨us', r'⟩, h1, h2⟩ := Option.map_eq_some_iff.1 h
              simp only [Prod.mk.injEq] at h2
              obtain ⟨rfl, rfl⟩ := h2
              obtain ⟨t, ht, hu⟩ := ih s (by omega) us' r' h1
              exact ⟨0x5c :: e :: t, by rw [hb, ht]; rfl, .esc e x us' t hx hu⟩
      · rename_i hb
        split at h
        · exact absurd h (by simp)
        · rename_i hlt
          obtain ⟨⟨us', r'⟩, h1, h2⟩ := Option.map_eq_some_iff.1 h
          simp only [Prod.mk.injEq] at h2
          obtain ⟨rfl, rfl⟩ := h2
          obtain ⟨t, ht, hu⟩ := ih s (by omega) us' r' h1
          refine ⟨c :: t, by rw [ht]; rfl, .plain c us' t ?_ hq hb hu⟩
          rw [UInt8.lt_iff_toNat_lt] at hlt
          have : ¬ c.toNat < 32 := hlt
          omega

/-- The first unit of a text. -/
theorem unitText_u16_head (n : Nat) (us : List StrUnit) (t : Bytes) (h : UnitText (.u16 n :: us) t) :
    ∃ u t', t = 0x5c :: 0x75 :: (u ++ t') ∧ Hex4 u n ∧ UnitText us t' := by
  cases h with
  | unicode u n us t hu h => exact ⟨u, t, rfl, hu, h⟩

theorem decodeRune_some (m n x : Nat) : decodeRune m n = some x ↔ HighSurrogate m ∧ LowSurrogate n ∧ x = 0x10000 + (m - 0xd800) * 0x400 + (n - 0xdc00) := by
  unfold decodeRune HighSurrogate LowSurrogate
  constructor
  · intro h
    split at h
    · rename_i hh
      rw [Option.some.injEq] at h
      exact ⟨⟨hh.1, hh.2.1⟩, ⟨hh.2.2.1, hh.2.2.2⟩, by omega⟩
    · exact absurd h (by simp)
  · intro ⟨h1, h2, h3⟩
    rw [if_pos ⟨h1.1, h1.2, h2.1, h2.2⟩, h3, Option.some.injEq]
    omega

theorem isSurrogate_iff (n : Nat) : isSurrogate n = true ↔ HighSurrogate n ∨ LowSurrogate n := by
  simp only [isSurrogate, HighSurrogate, LowSurrogate, Bool.and_eq_true, decide_eq_true_eq]
  omega

theorem hex4_inj {u v r r' : Bytes} {m n : Nat} (hu : Hex4 u m) (hv : Hex4 v n) (h : u ++ r = v ++ r') : m = n ∧ u = v ∧ r = r' := by
  obtain ⟨a, b, c, d, rfl, h1⟩ := hex4_length u m hu
  obtain ⟨a', b', c', d', rfl, h2⟩ := hex4_length v n hv
  simp only [List.cons_append, List.nil_append, List.cons.injEq] at h
  obtain ⟨rfl, rfl, rfl, rfl, rfl⟩ := h
  rw [h1] at h2
  exact ⟨Option.some.inj h2, rfl, rfl⟩

/-- A single unit that is not the first half of a pair. -/
theorem strText_single (u : Bytes) (m : Nat) (s t : Bytes) (hu : Hex4 u m)
    (hl : ¬ (HighSurrogate m ∧ ∃ v n r, t = 0x5c :: 0x75 :: (v ++ r) ∧ Hex4 v n ∧ LowSurrogate n)) (h : StrText s t) :
    StrText (utf8 (if isSurrogate m then 0xfffd else m) ++ s) (0x5c :: 0x75 :: (u ++ t)) := by
  by_cases hs : HighSurrogate m ∨ LowSurrogate m
  · rw [if_pos ((isSurrogate_iff m).2 hs)]
    exact .lone u m s t hu hs hl h
  · rw [if_neg (by rwa [isSurrogate_iff])]
    exact .unicode u m s t hu (not_or.1 hs) h

theorem unquote_sound : ∀ (us : List StrUnit) (t : Bytes), UnitText us t → StrText (unquote us) t := by
  intro us
  induction us using unquote.induct with
  | case1 => intro t h; cases h; exact .nil
  | case2 c r ih =>
    intro t h
    cases h with
    | plain c us t h0 h1 h2 h => exact .plain c _ t h0 h1 h2 (ih t h)
    | esc c x us t hc h => exact .esc c _ _ t hc (ih t h)
  | case3 m n r x hx ih =>
    intro t h
    obtain ⟨u, t1, rfl, hu, h1⟩ := unitText_u16_head _ _ _ h
    obtain ⟨v, t2, rfl, hv, h2⟩ := unitText_u16_head _ _ _ h1
    rw [unquote, hx]
    obtain ⟨hm, hn, hx'⟩ := (decodeRune_some m n x).1 hx
    rw [hx']
    exact .pair u v m n _ t2 hu hv hm hn (ih t2 h2)
  | case4 m n r hx ih =>
    intro t h
    obtain ⟨u, t1, rfl, hu, h1⟩ := unitText_u16_head _ _ _ h
    rw [unquote, hx]
    refine strText_single u m _ t1 hu ?_ (ih t1 h1)
    rintro ⟨hm, v, n', t', e, hv, hn⟩
    obtain ⟨v', t2, rfl, hv', h2⟩ := unitText_u16_head _ _ _ h1
    simp only [List.cons.injEq, true_and] at e
    obtain ⟨rfl, _⟩ := hex4_inj hv' hv e
    have := (decodeRune_some m n _).2 ⟨hm, hn, rfl⟩
    rw [hx] at this
    cases this
  | case5 m r hne ih =>
    intro t h
    obtain ⟨u, t1, rfl, hu, h1⟩ := unitText_u16_head _ _ _ h
    rw [unquote.eq_4 m r (by simpa using hne)]
    refine strText_single u m _ t1 hu ?_ (ih t1 h1)
    rintro ⟨hm, v, n', t', e, hv, hn⟩
    generalize ht : v ++ t' = t2 at e
    subst e
    cases h1 with
    | plain c us t h0 h1 h2 h => exact h2 rfl
    | esc c x us t hc h => rw [escChar_u] at hc; cases hc
    | unicode u' k us t hu h => exact hne k us rfl

theorem unquote_single (m : Nat) (us : List StrUnit) (h : ∀ n r, us = .u16 n :: r → decodeRune m n = none) :
    unquote (.u16 m :: us) = utf8 (if isSurrogate m then 0xfffd else m) ++ unquote us := by
  cases us with
  | nil => rw [unquote.eq_4 _ _ (by simp)]
  | cons x us =>
    cases x with
    | byte c => rw [unquote.eq_4 _ _ (by simp)]
    | u16 n => rw [unquote, h n us rfl]

theorem unquote_complete (s t : Bytes) (h : StrText s t) : ∃ us, UnitText us t ∧ unquote us = s := by
  induction h with
  | nil => exact ⟨[], .nil, rfl⟩
  | plain c s t h0 h1 h2 h ih =>
    obtain ⟨us, hu, rfl⟩ := ih
    exact ⟨.byte c :: us, .plain c us t h0 h1 h2 hu, by rw [unquote]⟩
  | esc c x s t hc h ih =>
    obtain ⟨us, hu, rfl⟩ := ih
    exact ⟨.byte x :: us, .esc c x us t hc hu, by rw [unquote]⟩
  | unicode u n s t hu hn h ih =>
    obtain ⟨us, hus, rfl⟩ := ih
    refine ⟨.u16 n :: us, .unicode u n us t hu hus, ?_⟩
    rw [unquote_single, if_neg]
    · rw [isSurrogate_iff]; exact not_or.2 hn
    · intro k r e
      cases hd : decodeRune n k with
      | none => rfl
      | some x => exact absurd ((decodeRune_some n k x).1 hd).1 hn.1
  | pair u v m n s t hu hv hm hn h ih =>
    obtain ⟨us, hus, rfl⟩ := ih
    refine ⟨.u16 m :: .u16 n :: us, .unicode u m _ _ hu (.unicode v n us t hv hus), ?_⟩
    rw [unquote, (decodeRune_some m n _).2 ⟨hm, hn, rfl⟩]
  | lone u m s t hu hm hl h ih =>
    obtain ⟨us, hus, rfl⟩ := ih
    refine ⟨.u16 m :: us, .unicode u m us t hu hus, ?_⟩
    rw [unquote_single, if_pos ((isSurrogate_iff m).2 hm)]
    intro k r e
    subst e
    obtain ⟨v, t', rfl, hv, h2⟩ := unitText_u16_head _ _ _ hus
    cases hd : decodeRune m k with
    | none => rfl
    | some x =>
      have := (decodeRune_some m k x).1 hd
      exact absurd ⟨this.1, v, k, t', rfl, hv, this.2.1⟩ hl

theorem scanStr_sound (s k r : Bytes) (h : scanStr s = some (k, r)) : ∃ t, s = t ++ 0x22 :: r ∧ StrText k t := by
  obtain ⟨⟨us, r'⟩, h1, h2⟩ := Option.map_eq_some_iff.1 h
  simp only [Prod.mk.injEq] at h2
  obtain ⟨rfl, rfl⟩ := h2
  obtain ⟨t, ht, hu⟩ := scanUnits_sound _ s (Nat.le_refl _) us r' h1
  exact ⟨t, ht, unquote_sound us t hu⟩

theorem scanStr_complete (k t r : Bytes) (h : StrText k t) : scanStr (t ++ 0x22 :: r) = some (k, r) := by
  obtain ⟨us, hu, rfl⟩ := unquote_complete k t h
  rw [scanStr, scanUnits_complete us t r hu]
  rfl

/-! ## Values -/

theorem scanLit_iff (l s r : Bytes) : scanLit l s = some r ↔ s = l ++ r := by
  induction l generalizing s with
  | nil => simp [scanLit, eq_comm]
  | cons x l ih =>
    cases s with
    | nil => simp [scanLit]
    | cons c s =>
      rw [scanLit]
      split
      · rename_i hc
        rw [ih, hc]; simp
      · rename_i hc
        simp [hc]

theorem pValue_sound_all (fuel : Nat) :
    (∀ d s v r, pValue fuel d s = some (v, r) → ∃ t, s = t ++ r ∧ ValText d v t) ∧
    (∀ d s vs r, pElems fuel d s = some (vs, r) → ∃ t, s = t ++ 0x5d :: r ∧ ElemsText d vs t) ∧
    (∀ d s ms r, pMembers fuel d s = some (ms, r) → ∃ t, s = t ++ 0x7d :: r ∧ MembersText d ms t) := by
  induction fuel with
  | zero => refine ⟨?_, ?_, ?_⟩ <;> (intro d s v r h; simp [pValue, pElems, pMembers] at h)
  | succ fuel ih =>
    obtain ⟨ihV, ihE, ihM⟩ := ih
    refine ⟨?_, ?_, ?_⟩
    · intro d s v r h
      cases s with
      | nil => simp [pValue] at h
      | cons c s =>
        rw [pValue.eq_def] at h
        dsimp only at h
        split at h
        · rename_i hc
          obtain ⟨⟨k, r'⟩, h1, h2⟩ := Option.map_eq_some_iff.1 h
          simp only [Prod.mk.injEq] at h2
          obtain ⟨rfl, rfl⟩ := h2
          obtain ⟨t, rfl, ht⟩ := scanStr_sound s k r' h1
          exact ⟨0x22 :: (t ++ [0x22]), by rw [hc]; simp, .str d k t ht⟩
        split at h
        · rename_i hc
          cases d with
          | zero => simp at h
          | succ d =>
            dsimp only at h
            obtain ⟨w, hw, hws⟩ := skipWs_split s
            split at h
            · exact absurd h (by simp)
            · rename_i x r' hr
              split at h
              · rename_i hx
                simp only [Option.some.injEq, Prod.mk.injEq] at h
                obtain ⟨rfl, rfl⟩ := h
                refine ⟨0x5b :: (w ++ [0x5d]), ?_, .arr0 d w hws⟩
                rw [hc, hw, hr, hx]; simp
              · obtain ⟨⟨vs, r2⟩, h1, h2⟩ := Option.map_eq_some_iff.1 h
                simp only [Prod.mk.injEq] at h2
                obtain ⟨rfl, rfl⟩ := h2
                obtain ⟨t, rfl, ht⟩ := ihE d s vs r2 h1
                exact ⟨0x5b :: (t ++ [0x5d]), by rw [hc]; simp, .arr d vs t ht⟩
        split at h
        · rename_i hc
          cases d with
          | zero => simp at h
          | succ d =>
            dsimp only at h
            obtain ⟨w, hw, hws⟩ := skipWs_split s
            split at h
            · exact absurd h (by simp)
            · rename_i x r' hr
              split at h
              · rename_i hx
                simp only [Option.some.injEq, Prod.mk.injEq] at h
                obtain ⟨rfl, rfl⟩ := h
                refine ⟨0x7b :: (w ++ [0x7d]), ?_, .obj0 d w hws⟩
                rw [hc, hw, hr, hx]; simp
              · obtain ⟨⟨vs, r2⟩, h1, h2⟩ := Option.map_eq_some_iff.1 h
                simp only [Prod.mk.injEq] at h2
                obtain ⟨rfl, rfl⟩ := h2
                obtain ⟨t, rfl, ht⟩ := ihM d s vs r2 h1
                exact ⟨0x7b :: (t ++ [0x7d]), by rw [hc]; simp, .obj d vs t ht⟩
        split at h
        · rename_i hc
          obtain ⟨r', h1, h2⟩ := Option.map_eq_some_iff.1 h
          simp only [Prod.mk.injEq] at h2
          obtain ⟨rfl, rfl⟩ := h2
          rw [scanLit_iff] at h1
          exact ⟨_, by rw [hc, h1]; rfl, .null d⟩
        split at h
        · rename_i hc
          obtain ⟨r', h1, h2⟩ := Option.map_eq_some_iff.1 h
          simp only [Prod.mk.injEq] at h2
          obtain ⟨rfl, rfl⟩ := h2
          rw [scanLit_iff] at h1
          exact ⟨_, by rw [hc, h1]; rfl, .tru d⟩
        split at h
        · rename_i hc
          obtain ⟨r', h1, h2⟩ := Option.map_eq_some_iff.1 h
          simp only [Prod.mk.injEq] at h2
          obtain ⟨rfl, rfl⟩ := h2
          rw [scanLit_iff] at h1
          exact ⟨_, by rw [hc, h1]; rfl, .fls d⟩
        · obtain ⟨⟨t, r'⟩, h1, h2⟩ := Option.map_eq_some_iff.1 h
          simp only [Prod.mk.injEq] at h2
          obtain ⟨rfl, rfl⟩ := h2
          have := scanNum_sound _ _ _ h1
          exact ⟨t, this.1, .num d t this.2⟩
    · intro d s vs r h
      rw [pElems] at h
      obtain ⟨w, hw, hws⟩ := skipWs_split s
      cases hv : pValue fuel d (skipWs s) with
      | none => simp [hv] at h
      | some p =>
        obtain ⟨v, r1⟩ := p
        simp only [hv] at h
        obtain ⟨t, ht, hvt⟩ := ihV d _ v r1 hv
        obtain ⟨w', hw', hws'⟩ := skipWs_split r1
        split at h
        · exact absurd h (by simp)
        · rename_i c r2 hr
          split at h
          · rename_i hc
            obtain ⟨⟨vs', r3⟩, h1, h2⟩ := Option.map_eq_some_iff.1 h
            simp only [Prod.mk.injEq] at h2
            obtain ⟨rfl, rfl⟩ := h2
            obtain ⟨t2, rfl, ht2⟩ := ihE d r2 vs' r3 h1
            refine ⟨_, ?_, .cons d v vs' w t w' t2 hws hws' hvt ht2⟩
            rw [hw, ht, hw', hr, hc]; simp
          · split at h
            · rename_i hc
              simp only [Option.some.injEq, Prod.mk.injEq] at h
              obtain ⟨rfl, rfl⟩ := h
              refine ⟨_, ?_, .one d v w t w' hws hws' hvt⟩
              rw [hw, ht, hw', hr, hc]; simp
            · exact absurd h (by simp)
    · intro d s ms r h
      rw [pMembers] at h
      obtain ⟨w, hw, hws⟩ := skipWs_split s
      split at h
      · exact absurd h (by simp)
      rename_i q s1 hs1
      split at h
      · exact absurd h (by simp)
      rename_i hq
      simp only [ne_eq, Decidable.not_not] at hq
      split at h
      · exact absurd h (by simp)
      rename_i k s2 hs2
      obtain ⟨kt, hkt, hk⟩ := scanStr_sound _ _ _ hs2
      obtain ⟨w1, hw1, hws1⟩ := skipWs_split s2
      split at h
      · exact absurd h (by simp)
      rename_i col s3 hs3
      split at h
      · exact absurd h (by simp)
      rename_i hcol
      simp only [ne_eq, Decidable.not_not] at hcol
      obtain ⟨w2, hw2, hws2⟩ := skipWs_split s3
      split at h
      · exact absurd h (by simp)
      rename_i v r1 hv
      obtain ⟨t, ht, hvt⟩ := ihV d _ v r1 hv
      obtain ⟨w3, hw3, hws3⟩ := skipWs_split r1
      split at h
      · exact absurd h (by simp)
      rename_i c r2 hr
      split at h
      · rename_i hc
        obtain ⟨⟨ms', r3⟩, h1, h2⟩ := Option.map_eq_some_iff.1 h
        simp only [Prod.mk.injEq] at h2
        obtain ⟨rfl, rfl⟩ := h2
        obtain ⟨t2, rfl, ht2⟩ := ihM d r2 ms' r3 h1
        refine ⟨_, ?_, .cons d k v ms' w kt w1 w2 t w3 t2 hws hk hws1 hws2 hvt hws3 ht2⟩
        rw [hw, hs1, hq, hkt, hw1, hs3, hcol, hw2, ht, hw3, hr, hc]; simp
      · split at h
        · rename_i hc
          simp only [Option.some.injEq, Prod.mk.injEq] at h
          obtain ⟨rfl, rfl⟩ := h
          refine ⟨_, ?_, .one d k v w kt w1 w2 t w3 hws hk hws1 hws2 hvt hws3⟩
          rw [hw, hs1, hq, hkt, hw1, hs3, hcol, hw2, ht, hw3, hr, hc]; simp
        · exact absurd h (by simp)

theorem valText_head (d : Nat) (v : JVal) (t : Bytes) (h : ValText d v t) : ∃ c r, t = c :: r ∧ isWs c = false ∧ c ≠ 0x5d := by
  cases h with
  | null => exact ⟨_, _, rfl, by decide, by decide⟩
  | tru => exact ⟨_, _, rfl, by decide, by decide⟩
  | fls => exact ⟨_, _, rfl, by decide, by decide⟩
  | num _ t h =>
    obtain ⟨c, r, rfl, hc⟩ := numText_head t h
    refine ⟨c, r, rfl, ?_, ?_⟩
    · cases hw : isWs c with
      | false => rfl
      | true =>
        rw [isWs_iff] at hw
        unfold Digit at hc
        rcases hw with rfl | rfl | rfl | rfl <;> revert hc <;> decide
    · rintro rfl
      unfold Digit at hc
      revert hc
      decide
  | str => exact ⟨_, _, rfl, by decide, by decide⟩
  | arr0 => exact ⟨_, _, rfl, by decide, by decide⟩
  | arr => exact ⟨_, _, rfl, by decide, by decide⟩
  | obj0 => exact ⟨_, _, rfl, by decide, by decide⟩
  | obj => exact ⟨_, _, rfl, by decide, by decide⟩

theorem skipWs_val (d : Nat) (v : JVal) (w t r : Bytes) (hw : Ws w) (h : ValText d v t) : skipWs (w ++ (t ++ r)) = t ++ r := by
  obtain ⟨c, t', rfl, hc, _⟩ := valText_head d v t h
  rw [skipWs_append _ _ hw]
  exact skipWs_cons _ _ hc

theorem elemsText_head (d : Nat) (vs : List JVal) (t r : Bytes) (h : ElemsText d vs t) : ∃ c r', skipWs (t ++ r) = c :: r' ∧ c ≠ 0x5d := by
  cases h with
  | one _ v w t w' hw hw' h =>
    obtain ⟨c, t', rfl, hc, hne⟩ := valText_head d v t h
    refine ⟨c, t' ++ w' ++ r, ?_, hne⟩
    rw [List.append_assoc, skipWs_append _ _ hw]
    exact skipWs_cons _ _ hc
  | cons _ v vs w t w' r' hw hw' h hr =>
    obtain ⟨c, t', rfl, hc, hne⟩ := valText_head d v t h
    refine ⟨c, t' ++ (w' ++ 0x2c :: r') ++ r, ?_, hne⟩
    rw [List.append_assoc, skipWs_append _ _ hw]
    exact skipWs_cons _ _ hc

theorem membersText_head (d : Nat) (ms : List (Bytes × JVal)) (t r : Bytes) (h : MembersText d ms t) : ∃ r', skipWs (t ++ r) = 0x22 :: r' := by
  cases h with
  | one _ k v w kt w1 w2 t w3 hw =>
    rw [List.append_assoc, skipWs_append _ _ hw]
    exact ⟨_, skipWs_cons _ _ (by decide)⟩
  | cons _ k v ms w kt w1 w2 t w3 r' hw =>
    rw [List.append_assoc, skipWs_append _ _ hw]
    exact ⟨_, skipWs_cons _ _ (by decide)⟩

theorem pValue_num (fuel d : Nat) (t r : Bytes) (h : NumText t) (hr : Stop r) : pValue (fuel + 1) d (t ++ r) = some (.num t, r) := by
  have hs := scanNum_complete t r h hr
  obtain ⟨c, t', rfl, hc⟩ := numText_head t h
  have : ∀ x : UInt8, (x = 0x22 ∨ x = 0x5b ∨ x = 0x7b ∨ x = 0x6e ∨ x = 0x74 ∨ x = 0x66) → c ≠ x := by
    unfold Digit at hc
    rintro x hx rfl
    rcases hx with rfl | rfl | rfl | rfl | rfl | rfl <;> revert hc <;> decide
  rw [List.cons_append] at hs ⊢
  rw [pValue.eq_def]
  dsimp only
  rw [if_neg (this _ (by simp)), if_neg (this _ (by simp)), if_neg (this _ (by simp)), if_neg (this _ (by simp)),
    if_neg (this _ (by simp)), if_neg (this _ (by simp)), hs]
  rfl

mutual
theorem pValue_complete (d : Nat) (v : JVal) (t : Bytes) (h : ValText d v t) :
    ∀ (r : Bytes) (fuel : Nat), Stop r → t.length ≤ fuel → pValue fuel d (t ++ r) = some (v, r) := by
  intro r fuel hr hf
  obtain ⟨c0, t0, e0, _⟩ := valText_head d v t h
  cases fuel with
  | zero => rw [e0] at hf; simp at hf
  | succ fuel =>
  cases h with
  | null => rw [pValue.eq_def]; rfl
  | tru => rw [pValue.eq_def]; rfl
  | fls => rw [pValue.eq_def]; rfl
  | num _ t h => exact pValue_num fuel d t r h hr
  | str _ s t h =>
    have := scanStr_complete s t r h
    rw [pValue.eq_def]
    simp only [List.cons_append, List.append_assoc, List.nil_append, if_true, this, Option.map_some]
  | arr0 d w hw =>
    have : skipWs (w ++ 0x5d :: r) = 0x5d :: r := by rw [skipWs_append _ _ hw]; exact skipWs_cons _ _ (by decide)
    rw [pValue.eq_def]
    simp only [List.cons_append, List.append_assoc, List.nil_append, if_neg (show (0x5b : UInt8) ≠ 0x22 by decide), if_true, this]
  | arr d vs t h =>
    simp only [List.length_cons, List.length_append, List.length_nil] at hf
    have ih := pElems_complete d vs t h r fuel (by omega)
    obtain ⟨c, r', hh, hne⟩ := elemsText_head d vs t (0x5d :: r) h
    rw [pValue.eq_def]
    simp only [List.cons_append, List.append_assoc, List.nil_append, if_neg (show (0x5b : UInt8) ≠ 0x22 by decide), if_true, hh,
      if_neg hne, ih, Option.map_some]
  | obj0 d w hw =>
    have : skipWs (w ++ 0x7d :: r) = 0x7d :: r := by rw [skipWs_append _ _ hw]; exact skipWs_cons _ _ (by decide)
    rw [pValue.eq_def]
    simp only [List.cons_append, List.append_assoc, List.nil_append, if_neg (show (0x7b : UInt8) ≠ 0x22 by decide),
      if_neg (show (0x7b : UInt8) ≠ 0x5b by decide), if_true, this]
  | obj d ms t h =>
    simp only [List.length_cons, List.length_append, List.length_nil] at hf
    have ih := pMembers_complete d ms t h r fuel (by omega)
    obtain ⟨r', hh⟩ := membersText_head d ms t (0x7d :: r) h
    rw [pValue.eq_def]
    simp only [List.cons_append, List.append_assoc, List.nil_append, if_neg (show (0x7b : UInt8) ≠ 0x22 by decide),
      if_neg (show (0x7b : UInt8) ≠ 0x5b by decide), if_true, hh, if_neg (show (0x22 : UInt8) ≠ 0x7d by decide), ih, Option.map_some]

theorem pElems_complete (d : Nat) (vs : List JVal) (t : Bytes) (h : ElemsText d vs t) :
    ∀ (r : Bytes) (fuel : Nat), t.length + 1 ≤ fuel → pElems fuel d (t ++ 0x5d :: r) = some (vs, r) := by
  intro r fuel hf
  cases fuel with
  | zero => omega
  | succ fuel =>
  cases h with
  | one _ v w t w' hw hw' h =>
    simp only [List.length_append] at hf
    have ih := pValue_complete d v t h (w' ++ 0x5d :: r) fuel (stop_ws _ _ hw' (stop_bracket r)) (by omega)
    have hs := skipWs_val d v w t (w' ++ 0x5d :: r) hw h
    have hs' : skipWs (w' ++ 0x5d :: r) = 0x5d :: r := by rw [skipWs_append _ _ hw']; exact skipWs_cons _ _ (by decide)
    rw [pElems.eq_def]
    simp only [List.append_assoc, hs, ih, hs', if_neg (show (0x5d : UInt8) ≠ 0x2c by decide), if_true]
  | cons _ v vs w t w' r' hw hw' h hr =>
    simp only [List.length_append, List.length_cons] at hf
    have ih := pValue_complete d v t h (w' ++ 0x2c :: (r' ++ 0x5d :: r)) fuel (stop_ws _ _ hw' (stop_comma _)) (by omega)
    have hl : 1 ≤ t.length := by obtain ⟨c, t', rfl, _⟩ := valText_head d v t h; simp
    have ih2 := pElems_complete d vs r' hr r fuel (by omega)
    have hs := skipWs_val d v w t (w' ++ 0x2c :: (r' ++ 0x5d :: r)) hw h
    have hs' : skipWs (w' ++ 0x2c :: (r' ++ 0x5d :: r)) = 0x2c :: (r' ++ 0x5d :: r) := by
      rw [skipWs_append _ _ hw']; exact skipWs_cons _ _ (by decide)
    rw [pElems.eq_def]
    simp only [List.append_assoc, List.cons_append, hs, ih, hs', if_true, ih2, Option.map_some]

theorem pMembers_complete (d : Nat) (ms : List (Bytes × JVal)) (t : Bytes) (h : MembersText d ms t) :
    ∀ (r : Bytes) (fuel : Nat), t.length + 1 ≤ fuel → pMembers fuel d (t ++ 0x7d :: r) = some (ms, r) := by
  intro r fuel hf
  cases fuel with
  | zero => omega
  | succ fuel =>
  cases h with
  | one _ k v w kt w1 w2 t w3 hw hk h1 h2 h h3 =>
    simp only [List.length_append, List.length_cons] at hf
    have ih := pValue_complete d v t h (w3 ++ 0x7d :: r) fuel (stop_ws _ _ h3 (stop_brace r)) (by omega)
    have e1 : skipWs (w ++ 0x22 :: (kt ++ 0x22 :: (w1 ++ 0x3a :: (w2 ++ (t ++ (w3 ++ 0x7d :: r)))))) =
        0x22 :: (kt ++ 0x22 :: (w1 ++ 0x3a :: (w2 ++ (t ++ (w3 ++ 0x7d :: r))))) := by rw [skipWs_append _ _ hw]; exact skipWs_cons _ _ (by decide)
    have e2 := scanStr_complete k kt (w1 ++ 0x3a :: (w2 ++ (t ++ (w3 ++ 0x7d :: r)))) hk
    have e3 : skipWs (w1 ++ 0x3a :: (w2 ++ (t ++ (w3 ++ 0x7d :: r)))) = 0x3a :: (w2 ++ (t ++ (w3 ++ 0x7d :: r))) := by
      rw [skipWs_append _ _ h1]; exact skipWs_cons _ _ (by decide)
    have e4 := skipWs_val d v w2 t (w3 ++ 0x7d :: r) h2 h
    have e5 : skipWs (w3 ++ 0x7d :: r) = 0x7d :: r := by rw [skipWs_append _ _ h3]; exact skipWs_cons _ _ (by decide)
    rw [pMembers.eq_def]
    simp only [List.append_assoc, List.cons_append, e1, ne_eq, not_true, if_false, e2, e3, e4, ih, e5,
      if_neg (show (0x7d : UInt8) ≠ 0x2c by decide), if_true]
  | cons _ k v ms w kt w1 w2 t w3 r' hw hk h1 h2 h h3 hr =>
    simp only [List.length_append, List.length_cons] at hf
    have ih := pValue_complete d v t h (w3 ++ 0x2c :: (r' ++ 0x7d :: r)) fuel (stop_ws _ _ h3 (stop_comma _)) (by omega)
    have ih2 := pMembers_complete d ms r' hr r fuel (by omega)
    have e1 : skipWs (w ++ 0x22 :: (kt ++ 0x22 :: (w1 ++ 0x3a :: (w2 ++ (t ++ (w3 ++ 0x2c :: (r' ++ 0x7d :: r))))))) =
        0x22 :: (kt ++ 0x22 :: (w1 ++ 0x3a :: (w2 ++ (t ++ (w3 ++ 0x2c :: (r' ++ 0x7d :: r)))))) := by
      rw [skipWs_append _ _ hw]; exact skipWs_cons _ _ (by decide)
    have e2 := scanStr_complete k kt (w1 ++ 0x3a :: (w2 ++ (t ++ (w3 ++ 0x2c :: (r' ++ 0x7d :: r))))) hk
    have e3 : skipWs (w1 ++ 0x3a :: (w2 ++ (t ++ (w3 ++ 0x2c :: (r' ++ 0x7d :: r))))) = 0x3a :: (w2 ++ (t ++ (w3 ++ 0x2c :: (r' ++ 0x7d :: r)))) := by
      rw [skipWs_append _ _ h1]; exact skipWs_cons _ _ (by decide)
    have e4 := skipWs_val d v w2 t (w3 ++ 0x2c :: (r' ++ 0x7d :: r)) h2 h
    have e5 : skipWs (w3 ++ 0x2c :: (r' ++ 0x7d :: r)) = 0x2c :: (r' ++ 0x7d :: r) := by
      rw [skipWs_append _ _ h3]; exact skipWs_cons _ _ (by decide)
    rw [pMembers.eq_def]
    simp only [List.append_assoc, List.cons_append, e1, ne_eq, not_true, if_false, e2, e3, e4, ih, e5, if_true, ih2, Option.map_some]
end

/-- The reader accepts exactly the JSON texts, with the value the grammar gives them. -/
theorem parse_iff (data : Bytes) (v : JVal) : parse data = some v ↔ JsonText data v := by
  constructor
  · intro h
    unfold parse at h
    obtain ⟨w, hw, hws⟩ := skipWs_split data
    split at h
    · rename_i v' r hp
      split at h
      · rename_i hr
        rw [Option.some.injEq] at h
        subst h
        obtain ⟨t, ht, hv⟩ := (pValue_sound_all _).1 _ _ _ _ hp
        exact ⟨w, t, r, by rw [← ht]; exact hw, hws, (skipWs_nil_iff r).1 hr, hv⟩
      · exact absurd h (by simp)
    · exact absurd h (by simp)
  · rintro ⟨w, t, w', rfl, hw, hw', h⟩
    unfold parse
    have hs : Stop w' := by have := stop_ws w' [] hw' stop_nil; rwa [List.append_nil] at this
    rw [skipWs_val 10000 v w t w' hw h, pValue_complete 10000 v t h w' _ hs (by simp only [List.length_append]; omega)]
    dsimp only
    rw [if_pos ((skipWs_nil_iff w').2 hw')]

/-- A text denotes one value. -/
theorem jsonText_unique (data : Bytes) (v v' : JVal) (h : JsonText data v) (h' : JsonText data v') : v = v' := by
  rw [← parse_iff] at h h'
  exact Option.some.inj (h.symm.trans h')

end Cardano.Json
