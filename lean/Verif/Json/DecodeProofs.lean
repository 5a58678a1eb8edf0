import Verif.Json.Decode
import Verif.Json.Proofs
import Verif.Node.Lemmas
/-!
# What a JSON value says about a struct of unsigned numbers, and that the decoder stores exactly that
-/
set_option autoImplicit false

namespace Cardano.Json
open Transaction Node

/-! ## Specification -/

/-- The same letter, case aside, or the same character. -/
def SameChar (c x : UInt8) : Prop :=
  c = x ∨ (65 ≤ x.toNat ∧ x.toNat ≤ 90 ∧ c.toNat = x.toNat + 32) ∨ (97 ≤ x.toNat ∧ x.toNat ≤ 122 ∧ x.toNat = c.toNat + 32)

/-- The key of a member refers to the field of this name: equal but for case; U+017F and U+212A are s and k in Unicode's case folding. -/
inductive SameName : (key name : Bytes) → Prop
  | nil : SameName [] []
  | char (c x : UInt8) (k n : Bytes) (hc : SameChar c x) (h : SameName k n) : SameName (c :: k) (x :: n)
  | longS (x : UInt8) (k n : Bytes) (hx : x = 0x73 ∨ x = 0x53) (h : SameName k n) : SameName (0xc5 :: 0xbf :: k) (x :: n)
  | kelvin (x : UInt8) (k n : Bytes) (hx : x = 0x6b ∨ x = 0x4b) (h : SameName k n) : SameName (0xe2 :: 0x84 :: 0xaa :: k) (x :: n)

/-- The literal is a natural number, without sign, fraction and exponent, of at most that many bits. -/
def UintLit (bits : Nat) (lit : Bytes) (n : Nat) : Prop :=
  lit ≠ [] ∧ (∀ c ∈ lit, Digit c) ∧ n = lit.foldl (fun a c => 10 * a + (c.toNat - 48)) 0 ∧ n < 2 ^ bits

/-- The members, read in order, give the field of that name the value `n`: null is passed over, the last number counts, and zero stands if there is none.
No member of that name has a value of another type or out of range. -/
inductive FieldIs (bits : Nat) (name : Bytes) : List (Bytes × JVal) → Nat → Prop
  | start : FieldIs bits name [] 0
  | other (ms : List (Bytes × JVal)) (n : Nat) (k : Bytes) (v : JVal) (h : FieldIs bits name ms n) (hk : ¬ SameName k name) :
      FieldIs bits name (ms ++ [(k, v)]) n
  | null (ms : List (Bytes × JVal)) (n : Nat) (k : Bytes) (h : FieldIs bits name ms n) (hk : SameName k name) :
      FieldIs bits name (ms ++ [(k, .null)]) n
  | set (ms : List (Bytes × JVal)) (m n : Nat) (k lit : Bytes) (h : FieldIs bits name ms m) (hk : SameName k name) (hn : UintLit bits lit n) :
      FieldIs bits name (ms ++ [(k, .num lit)]) n

/-- The members of the objects given to the field of that name, in order; null is passed over. -/
inductive ObjFieldIs (name : Bytes) : List (Bytes × JVal) → List (Bytes × JVal) → Prop
  | start : ObjFieldIs name [] []
  | other (ms os : List (Bytes × JVal)) (k : Bytes) (v : JVal) (h : ObjFieldIs name ms os) (hk : ¬ SameName k name) :
      ObjFieldIs name (ms ++ [(k, v)]) os
  | null (ms os : List (Bytes × JVal)) (k : Bytes) (h : ObjFieldIs name ms os) (hk : SameName k name) : ObjFieldIs name (ms ++ [(k, .null)]) os
  | set (ms os ns : List (Bytes × JVal)) (k : Bytes) (h : ObjFieldIs name ms os) (hk : SameName k name) :
      ObjFieldIs name (ms ++ [(k, .obj ns)]) (os ++ ns)

/-! ## Names -/

/-- Lower case. -/
def lowerN (x : UInt8) : Nat := if 65 ≤ x.toNat ∧ x.toNat ≤ 90 then x.toNat + 32 else x.toNat

def Ascii (n : Bytes) : Prop := ∀ c ∈ n, c.toNat < 128

theorem sameChar_lower (c x : UInt8) (h : SameChar c x) : lowerN c = lowerN x := by
  unfold SameChar at h
  unfold lowerN
  rcases h with rfl | h | h
  · rfl
  · split <;> split <;> omega
  · split <;> split <;> omega

theorem sameChar_ascii (c x : UInt8) (h : SameChar c x) (hx : x.toNat < 128) : c.toNat < 128 := by
  unfold SameChar at h
  rcases h with rfl | h | h <;> omega

theorem sameName_lower (k a b : Bytes) (ha : SameName k a) (hb : SameName k b) (ha' : Ascii a) (hb' : Ascii b) : a.map lowerN = b.map lowerN := by
  induction ha generalizing b with
  | nil => cases hb; rfl
  | char c x k n hc h ih =>
    have hx := ha' x (List.mem_cons_self ..)
    have hc' := sameChar_ascii c x hc hx
    have hn : Ascii n := fun y hy => ha' y (List.mem_cons_of_mem _ hy)
    cases hb with
    | char c y k m hy h' =>
      rw [List.map_cons, List.map_cons, ← sameChar_lower c x hc, ← sameChar_lower c y hy,
        ih m h' hn (fun y hy => hb' y (List.mem_cons_of_mem _ hy))]
    | longS => exact absurd hc' (by decide)
    | kelvin => exact absurd hc' (by decide)
  | longS x k n hx h ih =>
    have hn : Ascii n := fun y hy => ha' y (List.mem_cons_of_mem _ hy)
    cases hb with
    | char c y k m hy h' =>
      have := sameChar_ascii _ _ hy (hb' y (List.mem_cons_self ..))
      exact absurd this (by decide)
    | longS y k m hy h' =>
      rw [List.map_cons, List.map_cons, ih m h' hn (fun y hy => hb' y (List.mem_cons_of_mem _ hy))]
      rcases hx with rfl | rfl <;> rcases hy with rfl | rfl <;> rfl
  | kelvin x k n hx h ih =>
    have hn : Ascii n := fun y hy => ha' y (List.mem_cons_of_mem _ hy)
    cases hb with
    | char c y k m hy h' =>
      have := sameChar_ascii _ _ hy (hb' y (List.mem_cons_self ..))
      exact absurd this (by decide)
    | kelvin y k m hy h' =>
      rw [List.map_cons, List.map_cons, ih m h' hn (fun y hy => hb' y (List.mem_cons_of_mem _ hy))]
      rcases hx with rfl | rfl <;> rcases hy with rfl | rfl <;> rfl

theorem sameChar_iff (sb tb : UInt8) (hs : sb.toNat < 128) (ht : tb.toNat < 128) :
    (sb = tb || (isLetter sb && (sb &&& 0xdf) = (tb &&& 0xdf))) = true ↔ SameChar tb sb := by
  have mask : ∀ a : UInt8, a.toNat < 128 → (a &&& 0xdf).toNat = if (32 ≤ a.toNat ∧ a.toNat < 64) ∨ 96 ≤ a.toNat then a.toNat - 32 else a.toNat :=
    forall_byte (by decide +kernel)
  have hl : isLetter sb = true ↔ (65 ≤ sb.toNat ∧ sb.toNat ≤ 90) ∨ (97 ≤ sb.toNat ∧ sb.toNat ≤ 122) := by
    simp only [isLetter, Bool.or_eq_true, Bool.and_eq_true, decide_eq_true_eq, UInt8.le_iff_toNat_le]
    exact Iff.rfl
  unfold SameChar
  rw [Bool.or_eq_true, Bool.and_eq_true, decide_eq_true_eq, decide_eq_true_eq, hl, ← UInt8.toNat_inj, ← UInt8.toNat_inj, ← UInt8.toNat_inj,
    mask sb hs, mask tb ht]
  split <;> split <;> omega

theorem sameName_self (n : Bytes) : SameName n n := by
  induction n with
  | nil => exact .nil
  | cons c n ih => exact .char c c n n (Or.inl rfl) ih

theorem equalFold_iff (name : Bytes) (hn : Ascii name) : ∀ key, equalFold name key = true ↔ SameName key name := by
  induction name with
  | nil =>
    intro key
    cases key with
    | nil => simp [equalFold]; exact .nil
    | cons c k => simp [equalFold]; intro h; cases h
  | cons sb name ih =>
    intro key
    have ih := ih (fun y hy => hn y (List.mem_cons_of_mem _ hy))
    have hs := hn sb (List.mem_cons_self ..)
    cases key with
    | nil => simp [equalFold]; intro h; cases h
    | cons tb key =>
      rw [equalFold.eq_def]
      dsimp only
      by_cases ht : tb < 0x80
      · have ht' : tb.toNat < 128 := by rw [UInt8.lt_iff_toNat_lt] at ht; exact ht
        rw [if_pos ht, Bool.and_eq_true, sameChar_iff sb tb hs ht', ih]
        constructor
        · rintro ⟨h1, h2⟩; exact .char _ _ _ _ h1 h2
        · intro h
          cases h with
          | char c x k n hc h => exact ⟨hc, h⟩
          | longS => exact absurd ht' (by decide)
          | kelvin => exact absurd ht' (by decide)
      · have ht' : ¬ tb.toNat < 128 := by rw [UInt8.lt_iff_toNat_lt] at ht; exact ht
        rw [if_neg ht]
        by_cases hx : sb = 0x73 ∨ sb = 0x53
        · rw [if_pos hx]
          have hk : ¬ (sb = 0x6b ∨ sb = 0x4b) := by rcases hx with rfl | rfl <;> decide
          constructor
          · intro h
            cases key with
            | nil => simp at h
            | cons t1 key1 =>
              dsimp only at h
              split at h
              · rename_i he
                rw [he.1, he.2]
                exact .longS _ _ _ hx ((ih _).1 h)
              · exact absurd h (by simp)
          · intro h
            cases h with
            | char c x k n hc h => exact absurd (sameChar_ascii _ _ hc hs) ht'
            | longS x k n hx h => simp [(ih _).2 h]
            | kelvin x k n hx' h => exact absurd hx' hk
        · rw [if_neg hx]
          by_cases hx' : sb = 0x6b ∨ sb = 0x4b
          · rw [if_pos hx']
            constructor
            · intro h
              split at h
              · split at h
                · rename_i he
                  rw [he.1, he.2.1, he.2.2]
                  exact .kelvin _ _ _ hx' ((ih _).1 h)
                · exact absurd h (by simp)
              · exact absurd h (by simp)
            · intro h
              cases h with
              | char c x k n hc h => exact absurd (sameChar_ascii _ _ hc hs) ht'
              | longS x k n hx1 h => exact absurd hx1 hx
              | kelvin x k n hx h => simp [(ih _).2 h]
          · rw [if_neg hx']
            constructor
            · intro h; exact absurd h (by simp)
            · intro h
              cases h with
              | char c x k n hc h => exact absurd (sameChar_ascii _ _ hc hs) ht'
              | longS x k n h' h => exact absurd h' hx
              | kelvin x k n h' h => exact absurd h' hx'

theorem keyMatches_iff (name key : Bytes) (hn : Ascii name) : keyMatches name key = true ↔ SameName key name := by
  unfold keyMatches
  rw [Bool.or_eq_true, equalFold_iff name hn, decide_eq_true_eq]
  constructor
  · rintro (rfl | h)
    · exact sameName_self _
    · exact h
  · exact Or.inr

/-! ## One field -/

theorem uintLit_iff (bits : Nat) (lit : Bytes) (n : Nat) (hb : bits ≤ 64) : UintLit bits lit n ↔ ParseUint 64 lit = .ok n ∧ n < 2 ^ bits := by
  have h64 : 2 ^ bits ≤ 2 ^ 64 := Nat.pow_le_pow_right (by decide) hb
  have hdig : Digits lit ↔ ∀ c ∈ lit, Digit c := by
    unfold Digits Digit
    constructor <;> intro h c hc <;> have := h c hc <;> revert this <;> simp only [UInt8.le_iff_toNat_le] <;> exact id
  rw [ParseUint_ok, UintLit, hdig]
  unfold decFrom
  constructor
  · rintro ⟨a, b, c, d⟩; exact ⟨⟨a, b, c.symm, by omega⟩, d⟩
  · rintro ⟨⟨a, b, c, _⟩, d⟩; exact ⟨a, b, c.symm, d⟩

/-- What a value does to a field. -/
def Sets (bits : Nat) (old : Nat) (v : JVal) (n : Nat) : Prop := (v = .null ∧ n = old) ∨ ∃ lit, v = .num lit ∧ UintLit bits lit n

theorem storeUint_iff (bits : Nat) (hb : bits ≤ 64) (old : Nat) (v : JVal) (n : Nat) :
    storeUint bits old v = (n, none) ↔ Sets bits old v n := by
  unfold storeUint Sets
  cases v with
  | null => simp [eq_comm]
  | num lit =>
    simp only [JVal.num.injEq, reduceCtorEq, false_and, false_or, exists_eq_left']
    rw [uintLit_iff bits lit n hb]
    cases ParseUint 64 lit with
    | ok m =>
      dsimp only
      split
      · simp only [Prod.mk.injEq, and_true, Res.ok.injEq]
        constructor
        · rintro rfl; exact ⟨rfl, by assumption⟩
        · exact And.left
      · simp only [Prod.mk.injEq, reduceCtorEq, and_false, Res.ok.injEq, false_iff]
        rintro ⟨rfl, h⟩
        contradiction
    | err e => simp
    | panic => simp
  | bool b => simp
  | str s => simp
  | arr vs => simp
  | obj ms => simp

theorem fieldIs_snoc (bits : Nat) (name : Bytes) (ms : List (Bytes × JVal)) (k : Bytes) (v : JVal) (n : Nat) :
    FieldIs bits name (ms ++ [(k, v)]) n ↔
      (¬ SameName k name ∧ FieldIs bits name ms n) ∨ (SameName k name ∧ ∃ m, FieldIs bits name ms m ∧ Sets bits m v n) := by
  constructor
  · intro h
    generalize hx : ms ++ [(k, v)] = l at h
    cases h with
    | start => simp at hx
    | other ms' n k' v' h hk =>
      obtain ⟨rfl, h2⟩ := List.append_inj' hx rfl
      simp only [List.cons.injEq, Prod.mk.injEq, and_true] at h2
      obtain ⟨rfl, rfl⟩ := h2
      exact Or.inl ⟨hk, h⟩
    | null ms' n k' h hk =>
      obtain ⟨rfl, h2⟩ := List.append_inj' hx rfl
      simp only [List.cons.injEq, Prod.mk.injEq, and_true] at h2
      obtain ⟨rfl, rfl⟩ := h2
      exact Or.inr ⟨hk, n, h, Or.inl ⟨rfl, rfl⟩⟩
    | set ms' m n k' lit h hk hn =>
      obtain ⟨rfl, h2⟩ := List.append_inj' hx rfl
      simp only [List.cons.injEq, Prod.mk.injEq, and_true] at h2
      obtain ⟨rfl, rfl⟩ := h2
      exact Or.inr ⟨hk, m, h, Or.inr ⟨lit, rfl, hn⟩⟩
  · rintro (⟨hk, h⟩ | ⟨hk, m, h, ⟨rfl, rfl⟩ | ⟨lit, rfl, hn⟩⟩)
    · exact .other _ _ _ _ h hk
    · exact .null _ _ _ h hk
    · exact .set _ _ _ _ _ h hk hn

theorem objFieldIs_snoc (name : Bytes) (ms : List (Bytes × JVal)) (k : Bytes) (v : JVal) (os : List (Bytes × JVal)) :
    ObjFieldIs name (ms ++ [(k, v)]) os ↔
      (¬ SameName k name ∧ ObjFieldIs name ms os) ∨
      (SameName k name ∧ ((v = .null ∧ ObjFieldIs name ms os) ∨ ∃ os' ns, v = .obj ns ∧ os = os' ++ ns ∧ ObjFieldIs name ms os')) := by
  constructor
  · intro h
    generalize hx : ms ++ [(k, v)] = l at h
    cases h with
    | start => simp at hx
    | other ms' n k' v' h hk =>
      obtain ⟨rfl, h2⟩ := List.append_inj' hx rfl
      simp only [List.cons.injEq, Prod.mk.injEq, and_true] at h2
      obtain ⟨rfl, rfl⟩ := h2
      exact Or.inl ⟨hk, h⟩
    | null ms' n k' h hk =>
      obtain ⟨rfl, h2⟩ := List.append_inj' hx rfl
      simp only [List.cons.injEq, Prod.mk.injEq, and_true] at h2
      obtain ⟨rfl, rfl⟩ := h2
      exact Or.inr ⟨hk, Or.inl ⟨rfl, h⟩⟩
    | set ms' os' ns k' h hk =>
      obtain ⟨rfl, h2⟩ := List.append_inj' hx rfl
      simp only [List.cons.injEq, Prod.mk.injEq, and_true] at h2
      obtain ⟨rfl, rfl⟩ := h2
      exact Or.inr ⟨hk, Or.inr ⟨os', ns, rfl, rfl, h⟩⟩
  · rintro (⟨hk, h⟩ | ⟨hk, ⟨rfl, h⟩ | ⟨os', ns, rfl, rfl, h⟩⟩)
    · exact .other _ _ _ _ h hk
    · exact .null _ _ _ h hk
    · exact .set _ _ _ _ h hk

theorem fieldIs_nil (bits : Nat) (name : Bytes) (n : Nat) : FieldIs bits name [] n ↔ n = 0 := by
  constructor
  · intro h
    generalize hx : ([] : List (Bytes × JVal)) = l at h
    cases h with
    | start => rfl
    | other => simp at hx
    | null => simp at hx
    | set => simp at hx
  · rintro rfl; exact .start

theorem objFieldIs_nil (name : Bytes) (os : List (Bytes × JVal)) : ObjFieldIs name [] os ↔ os = [] := by
  constructor
  · intro h
    generalize hx : ([] : List (Bytes × JVal)) = l at h
    cases h with
    | start => rfl
    | other => simp at hx
    | null => simp at hx
    | set => simp at hx
  · rintro rfl; exact .start

theorem fieldIs_other (bits : Nat) (name : Bytes) (ms : List (Bytes × JVal)) (k : Bytes) (v : JVal) (n : Nat) (hk : ¬ SameName k name) :
    FieldIs bits name (ms ++ [(k, v)]) n ↔ FieldIs bits name ms n := by
  rw [fieldIs_snoc]; simp [hk]

theorem fieldIs_same (bits : Nat) (name : Bytes) (ms : List (Bytes × JVal)) (k : Bytes) (v : JVal) (n : Nat) (hk : SameName k name) :
    FieldIs bits name (ms ++ [(k, v)]) n ↔ ∃ m, FieldIs bits name ms m ∧ Sets bits m v n := by
  rw [fieldIs_snoc]; simp [hk]

theorem objFieldIs_other (name : Bytes) (ms : List (Bytes × JVal)) (k : Bytes) (v : JVal) (os : List (Bytes × JVal)) (hk : ¬ SameName k name) :
    ObjFieldIs name (ms ++ [(k, v)]) os ↔ ObjFieldIs name ms os := by
  rw [objFieldIs_snoc]; simp [hk]

theorem fieldIs_lt (bits : Nat) (name : Bytes) (ms : List (Bytes × JVal)) (n : Nat) (h : FieldIs bits name ms n) : n < 2 ^ bits := by
  induction h with
  | start => exact Nat.two_pow_pos bits
  | other ms n k v h hk ih => exact ih
  | null ms n k h hk ih => exact ih
  | set ms m n k lit h hk hn ih => exact hn.2.2.2

theorem sets_lt (bits old n : Nat) (v : JVal) (ho : old < 2 ^ bits) (h : Sets bits old v n) : n < 2 ^ bits := by
  rcases h with ⟨_, rfl⟩ | ⟨lit, _, h⟩
  · exact ho
  · exact h.2.2.2

theorem saveError_none (a b : Option String) : saveError a b = none ↔ a = none ∧ b = none := by
  cases a <;> simp [saveError]

theorem store64 (x y : UInt64) (v : JVal) :
    ((storeUint 64 x.toNat v).2 = none ∧ UInt64.ofNat (storeUint 64 x.toNat v).1 = y) ↔ Sets 64 x.toNat v y.toNat := by
  constructor
  · rintro ⟨h1, rfl⟩
    have h := (storeUint_iff 64 (by decide) x.toNat v (storeUint 64 x.toNat v).1).1 (Prod.ext rfl h1)
    have := sets_lt 64 _ _ _ x.toNat_lt h
    rwa [UInt64.toNat_ofNat_of_lt' this]
  · intro h
    rw [(storeUint_iff 64 (by decide) x.toNat v y.toNat).2 h]
    exact ⟨rfl, UInt64.ofNat_toNat⟩

theorem store8 (x y : UInt8) (v : JVal) :
    ((storeUint 8 x.toNat v).2 = none ∧ UInt8.ofNat (storeUint 8 x.toNat v).1 = y) ↔ Sets 8 x.toNat v y.toNat := by
  constructor
  · rintro ⟨h1, rfl⟩
    have h := (storeUint_iff 8 (by decide) x.toNat v (storeUint 8 x.toNat v).1).1 (Prod.ext rfl h1)
    have := sets_lt 8 _ _ _ x.toNat_lt h
    rwa [UInt8.toNat_ofNat_of_lt' this]
  · intro h
    rw [(storeUint_iff 8 (by decide) x.toNat v y.toNat).2 h]
    exact ⟨rfl, UInt8.ofNat_toNat⟩

/-- One step of storing into a field, given what the members before it said. -/
theorem field64_step (name : Bytes) (ms : List (Bytes × JVal)) (k : Bytes) (v : JVal) (y : UInt64) (hk : SameName k name) :
    FieldIs 64 name (ms ++ [(k, v)]) y.toNat ↔ ∃ x : UInt64, FieldIs 64 name ms x.toNat ∧ Sets 64 x.toNat v y.toNat := by
  rw [fieldIs_same _ _ _ _ _ _ hk]
  constructor
  · rintro ⟨m, h1, h2⟩
    have := fieldIs_lt _ _ _ _ h1
    refine ⟨UInt64.ofNat m, ?_, ?_⟩ <;> rwa [UInt64.toNat_ofNat_of_lt' this]
  · rintro ⟨x, h⟩; exact ⟨_, h⟩

theorem field8_step (name : Bytes) (ms : List (Bytes × JVal)) (k : Bytes) (v : JVal) (y : UInt8) (hk : SameName k name) :
    FieldIs 8 name (ms ++ [(k, v)]) y.toNat ↔ ∃ x : UInt8, FieldIs 8 name ms x.toNat ∧ Sets 8 x.toNat v y.toNat := by
  rw [fieldIs_same _ _ _ _ _ _ hk]
  constructor
  · rintro ⟨m, h1, h2⟩
    have := fieldIs_lt _ _ _ _ h1
    refine ⟨UInt8.ofNat m, ?_, ?_⟩ <;> rwa [UInt8.toNat_ofNat_of_lt' this]
  · rintro ⟨x, h⟩; exact ⟨_, h⟩

/-- A key refers to one of two different names only. -/
theorem names_disjoint (a b k : Bytes) (h : SameName k a) (ha : Ascii a) (hb : Ascii b) (hne : a.map lowerN ≠ b.map lowerN) : ¬ SameName k b :=
  fun h' => hne (sameName_lower k a b h h' ha hb)

/-! ## Structs -/

instance (n : Bytes) : Decidable (Ascii n) := by unfold Ascii; infer_instance

theorem snoc_induction {α : Type} {P : List α → Prop} (h0 : P []) (h1 : ∀ l a, P l → P (l ++ [a])) (l : List α) : P l := by
  have : ∀ l : List α, P l.reverse := by
    intro l
    induction l with
    | nil => exact h0
    | cons a l ih => rw [List.reverse_cons]; exact h1 _ _ ih
  simpa using this l.reverse

theorem version_fold (os : List (Bytes × JVal)) : ∀ a b : UInt8,
    os.foldl storeVersionMember ⟨(0, 0), none⟩ = ⟨(a, b), none⟩ ↔ FieldIs 8 nMajor os a.toNat ∧ FieldIs 8 nMinor os b.toNat := by
  induction os using snoc_induction with
  | h0 =>
    intro a b
    rw [fieldIs_nil, fieldIs_nil, List.foldl_nil]
    simp only [Out.mk.injEq, Prod.mk.injEq, and_true]
    constructor
    · rintro ⟨rfl, rfl⟩; exact ⟨rfl, rfl⟩
    · rintro ⟨h1, h2⟩
      exact ⟨(UInt8.toNat_inj.1 h1).symm, (UInt8.toNat_inj.1 h2).symm⟩
  | h1 os m ih =>
    obtain ⟨k, v⟩ := m
    intro a b
    rw [List.foldl_append, List.foldl_cons, List.foldl_nil]
    generalize os.foldl storeVersionMember ⟨(0, 0), none⟩ = st at ih ⊢
    obtain ⟨⟨a0, b0⟩, e0⟩ := st
    simp only [Out.mk.injEq, Prod.mk.injEq] at ih
    unfold storeVersionMember
    by_cases h1 : keyMatches nMajor k = true
    · have hk := (keyMatches_iff nMajor k (by decide)).1 h1
      have hk' := names_disjoint _ nMinor k hk (by decide) (by decide) (by decide)
      simp only [h1, if_true, Out.mk.injEq, Prod.mk.injEq, saveError_none]
      rw [field8_step _ _ _ _ _ hk, fieldIs_other _ _ _ _ _ _ hk']
      constructor
      · rintro ⟨⟨h2, rfl⟩, rfl, h4⟩
        have := (ih a0 b0).1 ⟨⟨rfl, rfl⟩, rfl⟩
        exact ⟨⟨a0, this.1, (store8 a0 a v).1 ⟨h4, h2⟩⟩, this.2⟩
      · rintro ⟨⟨x, h2, h3⟩, h4⟩
        obtain ⟨⟨rfl, rfl⟩, rfl⟩ := (ih x b).2 ⟨h2, h4⟩
        have := (store8 a0 a v).2 h3
        exact ⟨⟨this.2, rfl⟩, rfl, this.1⟩
    · have hk : ¬ SameName k nMajor := by rwa [← keyMatches_iff nMajor k (by decide)]
      by_cases h2 : keyMatches nMinor k = true
      · have hk' := (keyMatches_iff nMinor k (by decide)).1 h2
        simp only [h1, h2, Bool.false_eq_true, if_false, if_true, Out.mk.injEq, Prod.mk.injEq, saveError_none]
        rw [field8_step _ _ _ _ _ hk', fieldIs_other _ _ _ _ _ _ hk]
        constructor
        · rintro ⟨⟨rfl, h2⟩, rfl, h4⟩
          have := (ih a0 b0).1 ⟨⟨rfl, rfl⟩, rfl⟩
          exact ⟨this.1, b0, this.2, (store8 b0 b v).1 ⟨h4, h2⟩⟩
        · rintro ⟨h4, x, h2, h3⟩
          obtain ⟨⟨rfl, rfl⟩, rfl⟩ := (ih a x).2 ⟨h4, h2⟩
          have := (store8 b0 b v).2 h3
          exact ⟨⟨rfl, this.2⟩, rfl, this.1⟩
      · have hk' : ¬ SameName k nMinor := by rwa [← keyMatches_iff nMinor k (by decide)]
        simp only [h1, h2, Bool.false_eq_true, if_false, Out.mk.injEq, Prod.mk.injEq]
        rw [fieldIs_other _ _ _ _ _ _ hk, fieldIs_other _ _ _ _ _ _ hk']
        exact ih a b

end Cardano.Json
