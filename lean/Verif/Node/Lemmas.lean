import Verif.Node.Model
/-!
# Lemmas on lines, fields and decimal numbers
-/
set_option autoImplicit false

namespace Cardano.Node

/-! ## Specification of numbers -/

/-- All bytes are decimal digits. -/
def Digits (s : Bytes) : Prop := ∀ c ∈ s, 48 ≤ c ∧ c ≤ 57

/-- The number denoted by decimal digits, most significant first, after `n`. -/
def decFrom (n : Nat) (s : Bytes) : Nat := s.foldl (fun n c => 10 * n + (c.toNat - 48)) n

theorem decFrom_ge (s : Bytes) : ∀ n, n ≤ decFrom n s := by
  induction s with
  | nil => intro n; exact Nat.le_refl _
  | cons c s ih =>
    intro n
    have := ih (10 * n + (c.toNat - 48))
    unfold decFrom at this ⊢
    rw [List.foldl_cons]
    omega

theorem digits_cons (c : UInt8) (s : Bytes) : Digits (c :: s) ↔ (48 ≤ c ∧ c ≤ 57) ∧ Digits s := by
  unfold Digits
  exact List.forall_mem_cons

theorem parseLoop_cons (m : Nat) (c : UInt8) (s : Bytes) (n : Nat) (hc : 48 ≤ c ∧ c ≤ 57) :
    parseLoop m (c :: s) n = if 10 * n + (c.toNat - 48) > m then .err "value out of range" else parseLoop m s (10 * n + (c.toNat - 48)) := by
  rw [parseLoop, if_pos hc, Nat.mul_comm n 10]

theorem parseLoop_bad (m : Nat) (c : UInt8) (s : Bytes) (n : Nat) (hc : ¬ (48 ≤ c ∧ c ≤ 57)) : parseLoop m (c :: s) n = .err "invalid syntax" := by
  rw [parseLoop, if_neg hc]

theorem parseLoop_ok (m : Nat) (s : Bytes) : ∀ n v, n ≤ m → (parseLoop m s n = .ok v ↔ Digits s ∧ decFrom n s = v ∧ v ≤ m) := by
  induction s with
  | nil =>
    intro n v hn
    rw [parseLoop, show decFrom n [] = n by unfold decFrom; rw [List.foldl_nil], Res.ok.injEq]
    exact ⟨fun h => ⟨fun c hc => absurd hc List.not_mem_nil, h, by omega⟩, fun h => h.2.1⟩
  | cons c s ih =>
    intro n v hn
    rw [digits_cons]
    by_cases hc : 48 ≤ c ∧ c ≤ 57
    · rw [parseLoop_cons m c s n hc]
      have e : decFrom n (c :: s) = decFrom (10 * n + (c.toNat - 48)) s := by unfold decFrom; rw [List.foldl_cons]
      rw [e]
      generalize 10 * n + (c.toNat - 48) = n1
      by_cases hm : n1 > m
      · rw [if_pos hm]
        refine ⟨fun h => by simp at h, ?_⟩
        rintro ⟨_, h2, h3⟩
        have := decFrom_ge s n1
        omega
      · rw [if_neg hm, ih _ _ (by omega)]
        exact ⟨fun h => ⟨⟨hc, h.1⟩, h.2⟩, fun h => ⟨h.1.2, h.2⟩⟩
    · rw [parseLoop_bad m c s n hc]
      exact ⟨fun h => by simp at h, fun h => absurd h.1.1 hc⟩

theorem parseLoop_not_panic (m : Nat) (s : Bytes) : ∀ n, parseLoop m s n ≠ .panic := by
  induction s with
  | nil => intro n h; cases h
  | cons c s ih =>
    intro n h
    rw [parseLoop] at h
    split at h
    · dsimp only at h
      split at h
      · cases h
      · exact ih _ h
    · cases h

theorem ParseUint_ok (bits : Nat) (s : Bytes) (v : Nat) :
    ParseUint bits s = .ok v ↔ s ≠ [] ∧ Digits s ∧ decFrom 0 s = v ∧ v < 2 ^ bits := by
  unfold ParseUint
  have : 0 < 2 ^ bits := Nat.two_pow_pos bits
  by_cases h : s = []
  · simp [h]
  · rw [if_neg h, parseLoop_ok _ _ _ _ (by omega)]
    constructor
    · rintro ⟨a, b, c⟩; exact ⟨h, a, b, by omega⟩
    · rintro ⟨_, a, b, c⟩; exact ⟨a, b, by omega⟩

theorem Atoi_digits (s : Bytes) (hs : s ≠ []) (hd : Digits s) (hv : decFrom 0 s < 2 ^ 63) : Atoi s = .ok (decFrom 0 s) := by
  match s, hs with
  | c :: cs, _ =>
    have hc := hd c (List.mem_cons_self ..)
    have h1 : c ≠ 45 := by rintro rfl; exact absurd hc (by decide)
    have h2 : c ≠ 43 := by rintro rfl; exact absurd hc (by decide)
    unfold Atoi
    simp only [h1, h2, or_self, if_false]
    rw [(ParseUint_ok 64 (c :: cs) (decFrom 0 (c :: cs))).2 ⟨by simp, hd, rfl, by omega⟩, Res.ok_bind, if_neg (by omega)]
    rfl

/-! ## Lines -/

theorem splitLines_ne (s : Bytes) : splitLines s ≠ [] := by
  cases s with
  | nil => simp [splitLines]
  | cons c s =>
    rw [splitLines]
    split
    · simp
    · split <;> simp

theorem splitLines_length (s : Bytes) : (splitLines s).length = s.count 10 + 1 := by
  induction s with
  | nil => rfl
  | cons c s ih =>
    rw [splitLines]
    split
    · rename_i h; exact absurd h (splitLines_ne s)
    · rename_i l ls h
      rw [h] at ih
      by_cases hc : c = 10
      · subst hc; simp at ih ⊢; omega
      · rw [if_neg hc, List.count_cons_of_ne hc]; simpa using ih

/-- Every line is no longer than the number of bytes that are not line ends. -/
theorem splitLines_mem (s : Bytes) : ∀ l ∈ splitLines s, l.length + s.count 10 ≤ s.length := by
  induction s with
  | nil => intro l hl; simp [splitLines] at hl; subst hl; decide
  | cons c s ih =>
    intro l hl
    rw [splitLines] at hl
    split at hl
    · rename_i h; exact absurd h (splitLines_ne s)
    · rename_i l0 ls h
      rw [h] at ih
      by_cases hc : c = 10
      · subst hc
        rw [if_pos rfl] at hl
        rw [List.count_cons_self, List.length_cons]
        rcases List.mem_cons.1 hl with rfl | hl
        · have := List.count_le_length (a := (10 : UInt8)) (l := s); simp; omega
        · have := ih l hl; omega
      · rw [if_neg hc] at hl
        rw [List.count_cons_of_ne hc, List.length_cons]
        rcases List.mem_cons.1 hl with rfl | hl
        · have := ih l0 (List.mem_cons_self ..); simp; omega
        · have := ih l (List.mem_cons_of_mem _ hl); omega

theorem splitLines_append (a b : Bytes) (h : 10 ∉ a) : splitLines (a ++ 10 :: b) = a :: splitLines b := by
  induction a with
  | nil =>
    rw [List.nil_append, splitLines]
    split
    · rename_i h; exact absurd h (splitLines_ne b)
    · rename_i l ls e; rw [if_pos rfl, ← e]
  | cons c a ih =>
    have hc : c ≠ 10 := by rintro rfl; exact h (List.mem_cons_self ..)
    rw [List.cons_append, splitLines, ih (fun hx => h (List.mem_cons_of_mem _ hx))]
    simp only
    rw [if_neg hc]

/-! ## Fields -/

theorem fieldsLoop_length (s : Bytes) : ∀ cur, 2 * (fieldsLoop s cur).length ≤ s.length + (if cur = [] then 1 else 2) := by
  induction s with
  | nil => intro cur; rw [fieldsLoop]; by_cases h : cur = [] <;> simp [h]
  | cons c s ih =>
    intro cur
    rw [fieldsLoop]
    by_cases hs : isSpace c = true
    · rw [if_pos hs]
      have := ih []
      by_cases h : cur = []
      · rw [if_pos h, if_pos h]; simp at this ⊢; omega
      · rw [if_neg h, if_neg h]; simp at this ⊢; omega
    · rw [if_neg hs]
      have := ih (cur ++ [c])
      rw [if_neg (by simp)] at this
      simp only [List.length_cons]
      split <;> omega

/-- Short texts have at most one field. -/
theorem fields_short (s : Bytes) (h : s.length ≤ 2) : (fields s).length ≤ 1 := by
  have := fieldsLoop_length s []
  rw [if_pos rfl] at this
  unfold fields
  omega

/-- No white space. -/
def Word (s : Bytes) : Prop := s ≠ [] ∧ ∀ c ∈ s, isSpace c = false
/-- Only white space. -/
def Spaces (s : Bytes) : Prop := ∀ c ∈ s, isSpace c = true

theorem fieldsLoop_word (w rest : Bytes) (hw : ∀ c ∈ w, isSpace c = false) : ∀ cur, fieldsLoop (w ++ rest) cur = fieldsLoop rest (cur ++ w) := by
  induction w with
  | nil => intro cur; simp
  | cons c w ih =>
    intro cur
    rw [List.cons_append, fieldsLoop, if_neg (by simp [hw c (List.mem_cons_self ..)]), ih (fun x hx => hw x (List.mem_cons_of_mem _ hx))]
    simp

theorem fieldsLoop_spaces (sp rest : Bytes) (hs : Spaces sp) : fieldsLoop (sp ++ rest) [] = fieldsLoop rest [] := by
  induction sp with
  | nil => rfl
  | cons c sp ih =>
    rw [List.cons_append, fieldsLoop, if_pos (hs c (List.mem_cons_self ..)), if_pos rfl]
    exact ih (fun x hx => hs x (List.mem_cons_of_mem _ hx))

/-- A word followed by white space is the first field. -/
theorem fields_cons (w sp rest : Bytes) (hw : Word w) (hs : Spaces sp) (hne : sp ≠ []) : fields (w ++ (sp ++ rest)) = w :: fields rest := by
  unfold fields
  rw [fieldsLoop_word w _ hw.2, List.nil_append]
  match sp, hne with
  | c :: sp, _ =>
    rw [List.cons_append, fieldsLoop, if_pos (hs c (List.mem_cons_self ..)), if_neg hw.1,
      fieldsLoop_spaces sp rest (fun x hx => hs x (List.mem_cons_of_mem _ hx))]

theorem fields_word (w : Bytes) (hw : Word w) : fields w = [w] := by
  unfold fields
  have := fieldsLoop_word w [] hw.2 []
  rw [List.append_nil, List.nil_append] at this
  rw [this, fieldsLoop, if_neg hw.1]

theorem Digits.word {s : Bytes} (h : Digits s) (hne : s ≠ []) : Word s := by
  refine ⟨hne, fun c hc => ?_⟩
  have key : ∀ c : UInt8, 48 ≤ c ∧ c ≤ 57 → isSpace c = false := forall_byte (by decide +kernel)
  exact key c (h c hc)

end Cardano.Node
