import Verif.Props.Typo
import Verif.Props.Crc
/-!
# Lemmas for property C148: numbers, bytes, and what can be read from a few bytes
-/
set_option autoImplicit false

namespace Cardano.Props
open Cardano.Spec Cardano.Addr Cbor Byron

namespace Mistyped

/-! ## Numbers and bytes -/

theorem beBytes_add (a b n : Nat) : beBytes (a + b) n = beBytes a (n / 256 ^ b) ++ beBytes b n := by
  induction a with
  | zero => simp [beBytes]
  | succ a ih =>
    rw [show a + 1 + b = a + b + 1 by omega, beBytes, ih, beBytes, List.cons_append]
    congr 2
    rw [Nat.div_div_eq_div_mul, ← Nat.pow_add, Nat.add_comm b a]

theorem beBytes_mod (k n : Nat) : beBytes k (n % 256 ^ k) = beBytes k n := by
  have : ∀ k m n, m % 256 ^ k = n % 256 ^ k → beBytes k m = beBytes k n := by
    intro k
    induction k with
    | zero => intros; rfl
    | succ k ih =>
      intro m n h
      rw [beBytes, beBytes, ih m n (by
        have := congrArg (· % 256 ^ k) h
        simpa only [Nat.pow_succ, Nat.mod_mul_right_mod] using this)]
      congr 1
      have h2 := congrArg (· / 256 ^ k) h
      simp only [Nat.pow_succ, Nat.mod_mul_right_div_self] at h2
      apply UInt8.toNat_inj.1
      simpa only [UInt8.toNat_ofNat'] using h2
  exact this k _ _ (Nat.mod_mod _ _)

theorem beBytes_beVal (b : Bytes) : beBytes b.length (beVal b) = b := by
  induction b with
  | nil => rfl
  | cons x b ih =>
    have hl := beVal_lt b
    have hp : 0 < 256 ^ b.length := Nat.pow_pos (by omega)
    rw [List.length_cons, beBytes, beVal_cons]
    rw [show (x.toNat * 256 ^ b.length + beVal b) / 256 ^ b.length = x.toNat by
      rw [Nat.mul_comm, Nat.mul_add_div hp, Nat.div_eq_of_lt hl]; rfl]
    rw [← beBytes_mod, show (x.toNat * 256 ^ b.length + beVal b) % 256 ^ b.length = beVal b by
      rw [Nat.mul_comm, Nat.mul_add_mod, Nat.mod_eq_of_lt hl], ih]
    simp

theorem natBytes_eq {n k : Nat} (h1 : 256 ^ k ≤ n) (h2 : n < 256 ^ (k + 1)) : Base58.natBytes n = beBytes (k + 1) n := by
  have e : beVal (beBytes (k + 1) n) = n := by rw [beVal_beBytes, Nat.mod_eq_of_lt h2]
  rw [← Base58.natBytes_beVal (beBytes (k + 1) n), e]
  rintro x t h rfl
  rw [beBytes] at h
  have h3 : UInt8.ofNat (n / 256 ^ k) = 0 := (List.cons.inj h).1
  have h4 := congrArg UInt8.toNat h3
  rw [UInt8.toNat_ofNat'] at h4
  have h5 : n / 256 ^ k < 256 := by rw [Nat.div_lt_iff_lt_mul (Nat.pow_pos (by omega))]; rwa [Nat.pow_succ, Nat.mul_comm] at h2
  have h6 : 0 < n / 256 ^ k := Nat.div_pos h1 (Nat.pow_pos (by omega))
  have h7 : (0 : UInt8).toNat = 0 := rfl
  omega

/-! ## Reading -/

/-- What is read when there is one item to read. -/
theorem readMany_one {f : Nat} {bs : Bytes} {xs : List Item} {r : Bytes} (h : readMany f (some 1) bs = some (xs, r)) :
    ∃ f' x, xs = [x] ∧ readItem f' bs = some (x, r) := by
  match f with
  | 0 => simp [readMany] at h
  | f + 1 =>
    rw [readMany] at h
    split at h
    · cases h
    rename_i x r' hx
    match f with
    | 0 => simp [readMany] at h
    | f + 1 =>
      simp only [readMany, Option.some.injEq, Prod.mk.injEq] at h
      exact ⟨f + 1, x, h.1.symm, by rw [← h.2]; exact hx⟩

theorem readHead_lengths {bs : Bytes} {major ai n : Nat} {r : Bytes} (h : readHead bs = some (major, ai, n, r)) :
    r.length < bs.length ∧ (n < 24 ∧ r.length + 1 = bs.length ∧ (n = ai ∨ ai = 31) ∨ ai = 24 ∧ n < 256 ∧ r.length + 2 = bs.length ∨ ai = 25 ∧ n < 65536 ∧ r.length + 3 = bs.length ∨
      ai = 26 ∧ r.length + 5 = bs.length ∨ ai = 27 ∧ r.length + 9 = bs.length) := by
  cases bs with
  | nil => cases h
  | cons b bs =>
    simp only [readHead] at h
    split at h
    · cases h; simp; omega
    split at h
    · rename_i h1 h2
      split at h
      · cases h
      rename_i h3
      have hv := beVal_lt (bs.take (2 ^ (b.toNat % 32 - 24)))
      rw [List.length_take, Nat.min_eq_left (by omega)] at hv
      cases h
      rw [List.length_cons, List.length_drop]
      have h4 : b.toNat % 32 = 24 ∨ b.toNat % 32 = 25 ∨ b.toNat % 32 = 26 ∨ b.toNat % 32 = 27 := by omega
      rcases h4 with e | e | e | e <;> rw [e] at hv h3 ⊢
      · exact ⟨by omega, .inr (.inl ⟨rfl, hv, by show bs.length - 1 + 2 = _; have : ¬ bs.length < 1 := h3; omega⟩)⟩
      · exact ⟨by omega, .inr (.inr (.inl ⟨rfl, hv, by show bs.length - 2 + 3 = _; have : ¬ bs.length < 2 := h3; omega⟩))⟩
      · exact ⟨by omega, .inr (.inr (.inr (.inl ⟨rfl, by show bs.length - 4 + 5 = _; have : ¬ bs.length < 4 := h3; omega⟩)))⟩
      · exact ⟨by omega, .inr (.inr (.inr (.inr ⟨rfl, by show bs.length - 8 + 9 = _; have : ¬ bs.length < 8 := h3; omega⟩)))⟩
    split at h
    · cases h; simp; omega
    · cases h

theorem readHead_first {x : UInt8} {bs : Bytes} {major ai n : Nat} {r : Bytes} (h : readHead (x :: bs) = some (major, ai, n, r)) : major = x.toNat / 32 ∧ ai = x.toNat % 32 := by
  simp only [readHead] at h
  split at h
  · cases h; exact ⟨rfl, rfl⟩
  split at h
  · split at h
    · cases h
    · cases h; exact ⟨rfl, rfl⟩
  split at h
  · cases h; exact ⟨rfl, rfl⟩
  · cases h

theorem takeExactly_lengths {n : Nat} {bs b r : Bytes} (h : takeExactly n bs = some (b, r)) : b.length = n ∧ b.length + r.length = bs.length := by
  unfold takeExactly at h
  split at h
  · cases h
  · cases h; simp; omega

theorem readChunks_lengths (major : Nat) : ∀ (f : Nat) {bs b r : Bytes}, readChunks major f bs = some (b, r) → b.length + r.length < bs.length := by
  intro f
  induction f with
  | zero => intro bs b r h; cases h
  | succ f ih =>
    intro bs b r h
    rw [readChunks.eq_def] at h
    simp only at h
    split at h
    · cases h; simp
    split at h
    · cases h
    rename_i hr
    have h1 := (readHead_lengths hr).1
    split at h
    · cases h
    split at h
    · cases h
    rename_i ht
    have h2 := takeExactly_lengths ht
    split at h
    · cases h
    rename_i hc
    have h3 := ih hc
    cases h
    simp; omega

/-- A byte string takes at least one byte more than it has. -/
theorem readItem_bytes {f : Nat} {bs b r : Bytes} (h : readItem f bs = some (.bytes b, r)) :
    b.length + r.length < bs.length ∧ (b.length + r.length + 1 = bs.length → ∃ t, bs = UInt8.ofNat (0x40 + b.length) :: t ∧ b.length < 24 ∧ b = t.take b.length) := by
  unfold readItem readItemWith at h
  split at h
  · cases h
  rename_i major ai n t hr
  obtain ⟨h1, h2⟩ := readHead_lengths hr
  simp only at h
  split at h
  · split at h <;> cases h
  · split at h <;> cases h
  · obtain ⟨⟨b', r'⟩, hb, e⟩ := Option.map_eq_some_iff.1 h
    simp only [Prod.mk.injEq, Item.bytes.injEq] at e
    obtain ⟨rfl, rfl⟩ := e
    by_cases hi : ai = 31
    · rw [if_pos hi] at hb
      have := readChunks_lengths _ _ hb
      exact ⟨by omega, by omega⟩
    · rw [if_neg hi] at hb
      obtain ⟨h3, h4⟩ := takeExactly_lengths hb
      refine ⟨by omega, fun h5 => ?_⟩
      have hai : n < 24 ∧ n = ai := by omega
      cases bs with
      | nil => cases hr
      | cons x bs =>
        have hx := (readHead_first hr).2
        simp only [readHead] at hr
        rw [if_pos (by omega)] at hr
        simp only [Option.some.injEq, Prod.mk.injEq] at hr
        obtain ⟨m1, m2, m3, rfl⟩ := hr
        refine ⟨bs, ?_, by omega, ?_⟩
        · congr 1
          apply UInt8.toNat_inj.1
          rw [UInt8.toNat_ofNat']
          have := UInt8.toNat_lt x
          omega
        · unfold takeExactly at hb
          split at hb
          · cases hb
          · cases hb; rw [h3]
  · obtain ⟨_, _, e⟩ := Option.map_eq_some_iff.1 h; cases e
  · obtain ⟨_, _, e⟩ := Option.map_eq_some_iff.1 h; cases e
  · obtain ⟨_, _, e⟩ := Option.bind_eq_some_iff.1 h
    split at e <;> cases e
  · split at h
    · cases h
    obtain ⟨_, _, e⟩ := Option.bind_eq_some_iff.1 h
    split at e <;> cases e
  · split at h
    · cases h
    split at h
    · cases h
    split at h
    · split at h <;> cases h
    · cases h

/-- The kinds of item that can stand for a number, by the way they are written. -/
theorem readItem_cases {f : Nat} {bs r : Bytes} {c : Item} (h : readItem f bs = some (c, r)) :
    ∃ major ai n t, readHead bs = some (major, ai, n, t) ∧ ((∀ k, c = .uint k → k = n ∧ t = r ∧ major = 0 ∧ ai ≠ 31) ∧ (∀ k, c = .simple k → k < 256) ∧
      (∀ k x, c = .tag k x → ∃ f', readItem f' t = some (x, r) ∧ k = n ∧ major = 6 ∧ ai ≠ 31)) := by
  have h0 := h
  unfold readItem readItemWith at h
  split at h
  · cases h
  rename_i major ai n t hr
  obtain ⟨h1, h2⟩ := readHead_lengths hr
  refine ⟨major, ai, n, t, hr, ?_⟩
  simp only at h
  split at h
  · split at h
    · cases h
    · cases h
      exact ⟨fun k e => (by cases e; exact ⟨rfl, rfl, rfl, by assumption⟩), fun k e => (by cases e), fun k x e => by cases e⟩
  · split at h
    · cases h
    · cases h
      exact ⟨fun k e => (by cases e), fun k e => (by cases e), fun k x e => by cases e⟩
  · obtain ⟨_, _, e⟩ := Option.map_eq_some_iff.1 h
    cases e
    exact ⟨fun k e => (by cases e), fun k e => (by cases e), fun k x e => by cases e⟩
  · obtain ⟨_, _, e⟩ := Option.map_eq_some_iff.1 h
    cases e
    exact ⟨fun k e => (by cases e), fun k e => (by cases e), fun k x e => by cases e⟩
  · obtain ⟨_, _, e⟩ := Option.map_eq_some_iff.1 h
    cases e
    exact ⟨fun k e => (by cases e), fun k e => (by cases e), fun k x e => by cases e⟩
  · obtain ⟨_, _, e⟩ := Option.bind_eq_some_iff.1 h
    split at e
    · cases e
      exact ⟨fun k e => (by cases e), fun k e => (by cases e), fun k x e => by cases e⟩
    · cases e
  · split at h
    · cases h
    rename_i hi
    obtain ⟨⟨xs, r'⟩, hm, e⟩ := Option.bind_eq_some_iff.1 h
    obtain ⟨f', x', rfl, e2⟩ := readMany_one hm
    simp only [Option.some.injEq, Prod.mk.injEq] at e
    obtain ⟨rfl, rfl⟩ := e
    refine ⟨fun k e => (by cases e), fun k e => (by cases e), fun k y e => ?_⟩
    rw [Item.tag.injEq] at e
    exact ⟨f', by rw [← e.2]; exact e2, e.1.symm, rfl, hi⟩
  · split at h
    · cases h
    split at h
    · cases h
      exact ⟨fun k e => (by cases e), fun k e => (by cases e; omega), fun k x e => by cases e⟩
    split at h
    · split at h
      · cases h
      · cases h
        exact ⟨fun k e => (by cases e), fun k e => (by cases e; omega), fun k x e => by cases e⟩
    · cases h
      exact ⟨fun k e => (by cases e), fun k e => (by cases e), fun k x e => by cases e⟩

/-- In four bytes there is no number of 65536 or more. -/
theorem denotes_small {c : Item} {n : Nat} (hd : Denotes c n) : ∀ (f : Nat) (bs r : Bytes), bs.length ≤ 4 → readItem f bs = some (c, r) → n < 65536 := by
  induction hd with
  | uint n =>
    intro f bs r hl h
    obtain ⟨major, ai, m, t, hr, h1, -, -⟩ := readItem_cases h
    obtain ⟨e, e2, -, -⟩ := h1 n rfl
    have := readHead_lengths hr
    omega
  | simple n hn =>
    intro f bs r hl h
    obtain ⟨major, ai, m, t, hr, -, h2, -⟩ := readItem_cases h
    exact Nat.lt_trans (h2 n rfl) (by decide)
  | null n hn => intros; decide
  | big b =>
    intro f bs r hl h
    obtain ⟨major, ai, m, t, hr, -, -, h3⟩ := readItem_cases h
    obtain ⟨f', h4, -⟩ := h3 _ _ rfl
    have h5 := (readItem_bytes h4).1
    have h6 := (readHead_lengths hr).1
    have h7 := beVal_lt b
    exact Nat.lt_of_lt_of_le h7 (Nat.le_trans (Nat.pow_le_pow_right (by decide) (show b.length ≤ 2 by omega)) (by decide))
  | tag k x n hk hx ih =>
    intro f bs r hl h
    obtain ⟨major, ai, m, t, hr, -, -, h3⟩ := readItem_cases h
    obtain ⟨f', h4, -⟩ := h3 _ _ rfl
    have h6 := (readHead_lengths hr).1
    exact ih f' t r (by omega) h4

/-- In five bytes a number of 65536 or more is written in one of two ways. -/
theorem denotes_five {c : Item} {n f : Nat} {bs r : Bytes} (hd : Denotes c n) (hl : bs.length = 5) (h : readItem f bs = some (c, r)) (hn : 65536 ≤ n) :
    (∃ t, bs = 0x1a :: t ∧ beVal t = n) ∨ (∃ t, bs = 0xc2 :: 0x43 :: t ∧ beVal t = n) := by
  obtain ⟨major, ai, m, t, hr, h1, h2, h3⟩ := readItem_cases h
  have hL := readHead_lengths hr
  match bs, hl with
  | x :: bs, hl =>
  have hx := readHead_first hr
  have hx8 := UInt8.toNat_lt x
  rw [List.length_cons] at hl hL
  cases hd with
  | uint n =>
    obtain ⟨e, e2, e3, e4⟩ := h1 n rfl
    have hai : x.toNat = 26 := by omega
    have ex : x = 0x1a := UInt8.toNat_inj.1 hai
    subst ex
    left
    refine ⟨bs, rfl, ?_⟩
    have : readHead (0x1a :: bs) = some (0, 26, beVal (bs.take 4), bs.drop 4) := by
      simp only [readHead]
      rw [if_neg (by decide), if_pos (by decide), if_neg (by show ¬ bs.length < 4; omega)]
      rfl
    rw [this] at hr
    cases hr
    rw [e, List.take_of_length_le (by omega)]
  | simple n hn' => have := h2 n rfl; omega
  | null n hn' => omega
  | big b =>
    obtain ⟨f', h4, e1, e2, e3⟩ := h3 _ _ rfl
    have h5 := readItem_bytes h4
    have h7 : 3 ≤ b.length := by
      by_contra hc
      have h7 := beVal_lt b
      have : 256 ^ b.length ≤ 256 ^ 2 := Nat.pow_le_pow_right (by decide) (by omega)
      omega
    right
    obtain ⟨t', e4, e5, e6⟩ := h5.2 (by omega)
    have hb : b.length = 3 := by omega
    have hr0 : r.length = 0 := by omega
    have ex : x = 0xc2 := UInt8.toNat_inj.1 (by show x.toNat = 194; omega)
    subst ex
    have : readHead (0xc2 :: bs) = some (6, 2, 2, bs) := by simp [readHead]
    rw [this] at hr
    simp only [Option.some.injEq, Prod.mk.injEq] at hr
    obtain ⟨-, -, -, rfl⟩ := hr
    rw [hb] at e4 e6
    refine ⟨t', by rw [e4]; rfl, ?_⟩
    have : t'.length = 3 := by rw [e4] at hl; simpa using hl
    rw [e6, List.take_of_length_le (by omega)]
  | tag k y n hk hy =>
    obtain ⟨f', h4, -⟩ := h3 _ _ rfl
    have := denotes_small hy f' t r (by omega) h4
    omega

/-! ## Bytes used up by items -/

theorem itemWith_shorter {f : Nat} {many : Option Nat → Bytes → Option (List Item × Bytes)} (hm : ∀ k bs xs r, many k bs = some (xs, r) → r.length ≤ bs.length)
    {bs r : Bytes} {c : Item} (h : readItemWith f many bs = some (c, r)) : r.length < bs.length := by
  unfold readItemWith at h
  split at h
  · cases h
  rename_i major ai n t hr
  have h1 := (readHead_lengths hr).1
  simp only at h
  split at h
  · split at h
    · cases h
    · cases h; exact h1
  · split at h
    · cases h
    · cases h; exact h1
  · obtain ⟨⟨b', r'⟩, hb, e⟩ := Option.map_eq_some_iff.1 h
    cases e
    split at hb
    · have := readChunks_lengths _ _ hb; simp only; omega
    · have := takeExactly_lengths hb; simp only; omega
  · obtain ⟨⟨b', r'⟩, hb, e⟩ := Option.map_eq_some_iff.1 h
    cases e
    split at hb
    · have := readChunks_lengths _ _ hb; simp only; omega
    · have := takeExactly_lengths hb; simp only; omega
  · obtain ⟨⟨b', r'⟩, hb, e⟩ := Option.map_eq_some_iff.1 h
    cases e
    exact Nat.lt_of_le_of_lt (hm _ _ _ _ hb) h1
  · obtain ⟨⟨b', r'⟩, hb, e⟩ := Option.bind_eq_some_iff.1 h
    split at e
    · cases e
      exact Nat.lt_of_le_of_lt (hm _ _ _ _ hb) h1
    · cases e
  · split at h
    · cases h
    obtain ⟨⟨b', r'⟩, hb, e⟩ := Option.bind_eq_some_iff.1 h
    split at e
    · cases e
      exact Nat.lt_of_le_of_lt (hm _ _ _ _ hb) h1
    · cases e
  · split at h
    · cases h
    split at h
    · cases h; exact h1
    split at h
    · split at h
      · cases h
      · cases h; exact h1
    · cases h; exact h1

theorem many_shorter (f : Nat) : ∀ k bs xs r, readMany f k bs = some (xs, r) → r.length ≤ bs.length ∧ (k ≠ some 0 → r.length < bs.length) := by
  induction f with
  | zero => intro k bs xs r h; simp [readMany] at h
  | succ f ih =>
    intro k bs xs r h
    have hi : ∀ {bs c r}, readItemWith f (readMany f) bs = some (c, r) → r.length < bs.length := fun h => itemWith_shorter (fun k bs xs r h => (ih k bs xs r h).1) h
    match k with
    | some 0 =>
      simp only [readMany, Option.some.injEq, Prod.mk.injEq] at h
      rw [h.2]
      exact ⟨Nat.le_refl _, fun h => absurd rfl h⟩
    | some (n + 1) =>
      rw [readMany] at h
      split at h
      · cases h
      rename_i hx
      split at h
      · cases h
      rename_i hy
      have h1 := hi hx
      have h2 := (ih _ _ _ _ hy).1
      cases h
      exact ⟨by omega, fun _ => by omega⟩
    | none =>
      have key : ∀ {o : Option (List Item × Bytes)}, (match readItemWith f (readMany f) bs with
          | none => none
          | some (x, r) =>
            match readMany f none r with
            | none => none
            | some (xs, r) => some (x :: xs, r)) = o → o = some (xs, r) → r.length < bs.length := by
        intro o h e
        subst e
        split at h
        · cases h
        rename_i hx
        split at h
        · cases h
        rename_i hy
        have h1 := hi hx
        have h2 := (ih _ _ _ _ hy).1
        cases h
        omega
      rw [readMany.eq_def] at h
      dsimp only at h
      split at h
      · cases h; exact ⟨by simp, fun _ => by simp⟩
      · have := key h rfl
        exact ⟨by omega, fun _ => this⟩

theorem readItem_shorter {f : Nat} {bs r : Bytes} {c : Item} (h : readItem f bs = some (c, r)) : r.length < bs.length :=
  itemWith_shorter (fun k bs xs r h => (many_shorter f k bs xs r h).1) h

/-- Attributes written in one byte. -/
theorem attrs_byte {f : Nat} {p q : UInt8} {a : Item} {r : Bytes} {at' : ByronAttributes} (h : readItem f [p, q] = some (a, r)) (hr0 : r ≠ []) (ha : toAttrs a = .ok at') :
    (p = 0xa0 ∨ p = 0xf6 ∨ p = 0xf7) ∧ r = [q] := by
  have hr1 : r.length ≠ 0 := fun e => hr0 (List.length_eq_zero_iff.1 e)
  unfold readItem readItemWith at h
  split at h
  · cases h
  rename_i major ai n t hr
  have hl := readHead_lengths hr
  have hf := readHead_first hr
  have h8 := UInt8.toNat_lt p
  simp only [List.length_cons, List.length_nil] at hl
  have ht : ∀ {t : Bytes}, t.length = 1 → readHead [p, q] = some (major, ai, n, t) → t = [q] ∧ n = ai ∨ t = [q] ∧ ai = 31 := by
    intro t hl hr
    simp only [readHead] at hr
    split at hr
    · cases hr; exact .inl ⟨rfl, rfl⟩
    split at hr
    · split at hr
      · cases hr
      · cases hr
        simp only [List.length_drop, List.length_cons, List.length_nil] at hl
        have : 0 < 2 ^ (p.toNat % 32 - 24) := Nat.pow_pos (by decide)
        omega
    split at hr
    · rename_i h31; cases hr; exact .inr ⟨rfl, h31⟩
    · cases hr
  simp only at h
  split at h
  · split at h <;> cases h
    cases ha
  · split at h <;> cases h
    cases ha
  · obtain ⟨_, _, e⟩ := Option.map_eq_some_iff.1 h; cases e; cases ha
  · obtain ⟨_, _, e⟩ := Option.map_eq_some_iff.1 h; cases e; cases ha
  · obtain ⟨_, _, e⟩ := Option.map_eq_some_iff.1 h; cases e; cases ha
  · obtain ⟨⟨xs, r'⟩, hm, e⟩ := Option.bind_eq_some_iff.1 h
    split at e
    · cases e
      simp only at hr1
      have hs := many_shorter _ _ _ _ _ hm
      by_cases h31 : ai = 31
      · rw [if_pos h31] at hs
        have := hs.2 (by simp)
        omega
      · rw [if_neg h31] at hs
        by_cases hn : n = 0
        · subst hn
          have ht1 : t.length = 1 := by omega
          have := ht ht1 hr
          have hrt : r' = t := by
            rw [if_neg h31] at hm
            match f with
            | 0 => simp [readMany] at hm
            | f + 1 => simp only [readMany, Option.some.injEq, Prod.mk.injEq] at hm; exact hm.2.symm
          refine ⟨.inl (UInt8.toNat_inj.1 (by show p.toNat = 160; omega)), by rw [hrt]; rcases this with h | h <;> exact h.1⟩
        · have := hs.2 (by simp; omega)
          omega
    · cases e
  · split at h
    · cases h
    obtain ⟨⟨xs, r'⟩, hm, e⟩ := Option.bind_eq_some_iff.1 h
    split at e
    · cases e
      simp only at hr1
      have := (many_shorter _ _ _ _ _ hm).2 (by simp)
      omega
    · cases e
  · split at h
    · cases h
    split at h
    · cases h
      have h22 : n = 22 ∨ n = 23 := by
        by_contra hc
        simp only [toAttrs, if_neg hc] at ha
        cases ha
      have h7 : 7 ≤ major := by
        by_contra hc
        have : major = 0 ∨ major = 1 ∨ major = 2 ∨ major = 3 ∨ major = 4 ∨ major = 5 ∨ major = 6 := by omega
        rcases this with e | e | e | e | e | e | e <;> exact absurd e (by assumption)
      have := ht (by omega) hr
      refine ⟨?_, by rcases this with h | h <;> exact h.1⟩
      rcases h22 with e | e
      · exact .inr (.inl (UInt8.toNat_inj.1 (by show p.toNat = 246; omega)))
      · exact .inr (.inr (UInt8.toNat_inj.1 (by show p.toNat = 247; omega)))
    split at h
    · split at h
      · cases h
      · cases h; omega
    · cases h
      cases ha

/-- A type of zero written in one byte. -/
theorem zero_byte : ∀ q : UInt8, ∀ t r o, readItem 30 [q] = some (t, r) → toUint (2 ^ 64 - 1) t = .ok o → UInt64.ofNat (o.getD 0) = 0 →
    q = 0 ∨ q = 0xe0 ∨ q = 0xf6 ∨ q = 0xf7 := by
  have key : ∀ q : UInt8, (match readItem 30 [q] with
      | some (t, _) => (match toUint (2 ^ 64 - 1) t with
        | .ok o => decide (UInt64.ofNat (o.getD 0) = 0)
        | _ => false)
      | none => false) = true → q = 0 ∨ q = 0xe0 ∨ q = 0xf6 ∨ q = 0xf7 := forall_byte (by decide +kernel)
  intro q t r o h1 h2 h3
  apply key q
  rw [h1]
  dsimp only
  rw [h2]
  exact decide_eq_true h3

/-! ## Reading a plain address -/

theorem many_succ {f n : Nat} {bs r : Bytes} {xs : List Item} (h : readMany (f + 1) (some (n + 1)) bs = some (xs, r)) :
    ∃ x r1 ys, readItem f bs = some (x, r1) ∧ readMany f (some n) r1 = some (ys, r) ∧ xs = x :: ys := by
  rw [readMany] at h
  split at h
  · cases h
  rename_i x r1 hx
  split at h
  · cases h
  rename_i ys r2 hy
  cases h
  exact ⟨x, r1, ys, hx, hy, rfl⟩

theorem many_zero {f : Nat} {bs r : Bytes} {xs : List Item} (h : readMany (f + 1) (some 0) bs = some (xs, r)) : xs = [] ∧ r = bs := by
  simp only [readMany, Option.some.injEq, Prod.mk.injEq] at h
  exact ⟨h.1.symm, h.2.symm⟩

theorem item_array (k : Fin 24) {f : Nat} {t r : Bytes} {x : Item} (h : readItem f (UInt8.ofNat (128 + k.val) :: t) = some (x, r)) :
    ∃ xs, readMany f (some k.val) t = some (xs, r) ∧ x = .array xs := by
  have h1 : ∀ k : Fin 24, (UInt8.ofNat (128 + k.val)).toNat % 32 = k.val ∧ (UInt8.ofNat (128 + k.val)).toNat / 32 = 4 := by decide +kernel
  obtain ⟨e1, e2⟩ := h1 k
  have hh : readHead (UInt8.ofNat (128 + k.val) :: t) = some (4, k.val, k.val, t) := by
    simp only [readHead, e1, e2]
    rw [if_pos k.isLt]
  unfold readItem readItemWith at h
  rw [hh] at h
  simp only at h
  rw [if_neg (by omega)] at h
  obtain ⟨⟨xs, r'⟩, hb, e⟩ := Option.map_eq_some_iff.1 h
  cases e
  exact ⟨xs, hb, rfl⟩

theorem head_one (b n : UInt8) (t : Bytes) (hb : b.toNat % 32 = 24) : readHead (b :: n :: t) = some (b.toNat / 32, 24, n.toNat, t) := by
  simp [readHead, hb, beVal, List.take]

theorem item_bytes (f : Nat) (n : UInt8) (t : Bytes) : readItem f (0x58 :: n :: t) = (takeExactly n.toNat t).map fun (b, r) => (.bytes b, r) := by
  unfold readItem readItemWith
  rw [head_one 0x58 n t (by decide)]
  rfl

theorem item_tag {f : Nat} {n : UInt8} {t r : Bytes} {x : Item} (h : readItem (f + 1) (0xd8 :: n :: t) = some (x, r)) :
    ∃ y, readItem f t = some (y, r) ∧ x = .tag n.toNat y := by
  unfold readItem readItemWith at h
  rw [head_one 0xd8 n t (by decide)] at h
  simp only [show (0xd8 : UInt8).toNat / 32 = 6 by decide] at h
  rw [if_neg (by omega)] at h
  obtain ⟨⟨xs, r'⟩, hb, e⟩ := Option.bind_eq_some_iff.1 h
  obtain ⟨y, r1, ys, h1, h2, rfl⟩ := many_succ hb
  have h3 : ys = [] ∧ r' = r1 := by
    match f with
    | 0 => simp [readMany] at h2
    | f + 1 => exact many_zero h2
  obtain ⟨rfl, rfl⟩ := h3
  simp only at e
  cases e
  exact ⟨y, h1, rfl⟩

theorem take_split {n : Nat} {t b r : Bytes} (h : takeExactly n t = some (b, r)) : t = b ++ r ∧ b.length = n := by
  unfold takeExactly at h
  split at h
  · cases h
  · cases h; simp; omega

/-- What an accepted Byron address of 43 bytes with a 33 byte payload that begins like a plain one looks like. -/
theorem accepted_43 {strict : Bool} {n : UInt8} {u w : Bytes} {b : ByronAddress} (hu : u.length = 30) (hw : w.length = 5)
    (h : unmarshal strict (0x82 :: 0xd8 :: 0x18 :: 0x58 :: 0x21 :: 0x83 :: 0x58 :: n :: (u ++ w)) = .ok b) :
    n = 28 ∧ (∃ g p q, u = g ++ [p, q] ∧ (p = 0xa0 ∨ p = 0xf6 ∨ p = 0xf7) ∧ (q = 0 ∨ q = 0xe0 ∨ q = 0xf6 ∨ q = 0xf7)) ∧
    ∃ c r, readItem 41 w = some (c, r) ∧ Denotes c (Crc32.checksum (0x83 :: 0x58 :: n :: u)).toNat := by
  unfold unmarshal at h
  split at h
  · cases h
  rename_i x rest hx
  split at h
  · cases h
  unfold parseFirst at hx
  have hl : (0x82 :: 0xd8 :: 0x18 :: 0x58 :: 0x21 :: 0x83 :: 0x58 :: n :: (u ++ w) : Bytes).length = 43 := by simp [hu, hw]
  rw [hl] at hx
  obtain ⟨xs, hm, rfl⟩ := item_array ⟨2, by omega⟩ hx
  obtain ⟨x1, r1, ys, i1, m1, rfl⟩ := many_succ hm
  obtain ⟨x2, r2, zs, i2, m2, rfl⟩ := many_succ m1
  obtain ⟨rfl, rfl⟩ := many_zero m2
  obtain ⟨y, k1, rfl⟩ := item_tag i1
  rw [item_bytes] at k1
  obtain ⟨⟨v, r'⟩, ht, e⟩ := Option.map_eq_some_iff.1 k1
  simp only [Prod.mk.injEq] at e
  obtain ⟨rfl, rfl⟩ := e
  obtain ⟨hv, hv2⟩ := take_split ht
  rw [show (0x83 :: 0x58 :: n :: (u ++ w) : Bytes) = (0x83 :: 0x58 :: n :: u) ++ w by simp] at hv
  obtain ⟨rfl, rfl⟩ := List.append_inj hv (by rw [hv2]; simp [hu])
  unfold ofItem at h
  simp only [stripTags] at h
  obtain ⟨crc, hcrc, h⟩ := bind_ok h
  split at h
  · cases h
  split at h
  · cases h
  rename_i hc
  obtain ⟨b', hd, h⟩ := bind_ok h
  split at h
  · cases h
  rename_i hb
  have hb28 : b'.hash.length = 28 := by by_contra hx; exact hb (.inl hx)
  have hb0 : b'.tag = 0 := by by_contra hx; exact hb (.inr hx)
  have hden : Denotes x2 (Crc32.checksum (0x83 :: 0x58 :: n :: u)).toNat := by
    have := toUint_denotes _ _ _ hcrc
    rwa [not_not.1 hc] at this
  clear h hx ht hv hb hm
  unfold decodeRaw at hd
  split at hd
  · cases hd
  rename_i x rest' hx
  split at hd
  · cases hd
  unfold parseFirst at hx
  rw [show (0x83 :: 0x58 :: n :: u : Bytes).length = 33 by simp [hu]] at hx
  obtain ⟨xs, hm, rfl⟩ := item_array ⟨3, by omega⟩ hx
  obtain ⟨x1, r1, ys, j1, m3, rfl⟩ := many_succ hm
  obtain ⟨x3, r3, zs, j2, m4, rfl⟩ := many_succ m3
  obtain ⟨x4, r4, zs, j3, m5, rfl⟩ := many_succ m4
  obtain ⟨rfl, rfl⟩ := many_zero m5
  rw [item_bytes] at j1
  obtain ⟨⟨g, r'⟩, ht, e⟩ := Option.map_eq_some_iff.1 j1
  simp only [Prod.mk.injEq] at e
  obtain ⟨rfl, rfl⟩ := e
  obtain ⟨rfl, hg⟩ := take_split ht
  simp only [stripTags] at hd
  obtain ⟨hash, hh, hd⟩ := bind_ok hd
  cases hh
  obtain ⟨attrs, ha, hd⟩ := bind_ok hd
  obtain ⟨tag, htag, hd⟩ := bind_ok hd
  cases hd
  have hn : n = 28 := UInt8.toNat_inj.1 (by rw [← hg]; exact hb28)
  have hr2 : r'.length = 2 := by
    rw [List.length_append] at hu
    have : g.length = 28 := hb28
    omega
  obtain ⟨p, q, rfl⟩ := List.length_eq_two.1 hr2
  have hne : r3 ≠ [] := by
    rintro rfl
    have := readItem_shorter j3
    simp at this
  obtain ⟨hp, rfl⟩ := attrs_byte j2 hne ha
  exact ⟨hn, ⟨g, p, q, rfl, hp, zero_byte q _ _ _ j3 htag hb0⟩, x2, _, i2, hden⟩

/-! ## Numbers -/

/-- The first eight bytes of a plain address as a number. -/
def front : Nat := 0x82d818582183581c

/-- Values of the two bytes that hold the attributes and the type. -/
def tails : List Nat := [0xa000, 0xa0e0, 0xa0f6, 0xa0f7, 0xf600, 0xf6e0, 0xf6f6, 0xf6f7, 0xf700, 0xf7e0, 0xf7f6, 0xf7f7]

/-- The payload of a plain address as a function of the number of the whole. -/
def payloadOf (n : Nat) : Bytes := 0x83 :: 0x58 :: 0x1c :: beBytes 30 (n / 256 ^ 5)

theorem accepted_number {strict : Bool} {n : Nat} {b : ByronAddress} (hf : n / 256 ^ 35 = front - 1 ∨ n / 256 ^ 35 = front ∨ n / 256 ^ 35 = front + 1)
    (h : unmarshal strict (beBytes 43 n) = .ok b) :
    n / 256 ^ 35 = front ∧ n / 256 ^ 5 % 65536 ∈ tails ∧ ∃ c r, readItem 41 (beBytes 5 n) = some (c, r) ∧ Denotes c (Crc32.checksum (payloadOf n)).toNat := by
  have e1 : beBytes 43 n = beBytes 8 (n / 256 ^ 35) ++ (beBytes 30 (n / 256 ^ 5) ++ beBytes 5 n) := by
    rw [show 43 = 8 + (30 + 5) by rfl, beBytes_add 8 (30 + 5) n, beBytes_add 30 5 n]
  have key : ∀ m : UInt8, beBytes 8 (n / 256 ^ 35) = [0x82, 0xd8, 0x18, 0x58, 0x21, 0x83, 0x58, m] →
      m = 28 ∧ n / 256 ^ 5 % 65536 ∈ tails ∧ ∃ c r, readItem 41 (beBytes 5 n) = some (c, r) ∧ Denotes c (Crc32.checksum (payloadOf n)).toNat := by
    intro m hm
    rw [e1, hm] at h
    obtain ⟨rfl, ⟨g, p, q, e, hp, hq⟩, c, r, h1, h2⟩ := accepted_43 (u := beBytes 30 (n / 256 ^ 5)) (w := beBytes 5 n) (beBytes_length _ _) (beBytes_length _ _) h
    refine ⟨rfl, ?_, c, r, h1, h2⟩
    have e2 : beBytes 30 (n / 256 ^ 5) = beBytes 28 (n / 256 ^ 5 / 256 ^ 2) ++ beBytes 2 (n / 256 ^ 5) := beBytes_add 28 2 _
    rw [e] at e2
    have hl : g.length + 2 = 30 := by
      have := congrArg List.length e
      rw [beBytes_length] at this
      simpa using this.symm
    have e3 := (List.append_inj e2 (by rw [beBytes_length]; omega)).2
    have e4 := congrArg beVal e3
    rw [beVal_beBytes] at e4
    have e5 : n / 256 ^ 5 % 65536 = p.toNat * 256 + q.toNat := by
      rw [show (65536 : Nat) = 256 ^ 2 by rfl, ← e4]
      simp [beVal]
    rw [e5]
    rcases hp with rfl | rfl | rfl <;> rcases hq with rfl | rfl | rfl | rfl <;> decide
  rcases hf with hf | hf | hf
  · have := (key 27 (by rw [hf]; decide +kernel)).1
    exact absurd this (by decide)
  · exact ⟨hf, (key 28 (by rw [hf]; decide +kernel)).2⟩
  · have := (key 29 (by rw [hf]; decide +kernel)).1
    exact absurd this (by decide)

/-- Differences made by one or two mistyped characters: none of them turns one pair of bytes for the attributes and the type into another one, unless the next byte
becomes `f5`. -/
def harmless (d : Nat) : Bool :=
  decide (0 < d) && decide (d < 2 ^ 280) && decide (d ≠ 0xa843 * 2 ^ 24) && tails.all fun c =>
    (let x := (0xa000 * 2 ^ 40 + d + 2 ^ 56 - c * 2 ^ 40) % 2 ^ 56
     (decide (2 ^ 40 ≤ x) && decide (x ≤ 2 ^ 56 - 2 ^ 40)) || (c == 0xa000 && decide (d < 2 ^ 40))) &&
    (let x := (c * 2 ^ 40 + d + 2 ^ 56 - 0xa000 * 2 ^ 40) % 2 ^ 56
     (decide (2 ^ 40 ≤ x) && decide (x ≤ 2 ^ 56 - 2 ^ 40)) || (c == 0xa000 && decide (d < 2 ^ 40)) || x == 2 ^ 56 - 0xdb * 2 ^ 32)

theorem harmless_replaced : ∀ k, k ≤ 45 → ∀ d, 0 < d → d < 58 → harmless (d * 58 ^ k) = true := by
  have h : ((List.range 46).all fun k => (List.range 57).all fun d => harmless ((d + 1) * 58 ^ k)) = true := by decide +kernel
  intro k hk d h1 h2
  have := List.all_eq_true.1 (List.all_eq_true.1 h k (List.mem_range.2 (by omega))) (d - 1) (List.mem_range.2 (by omega))
  rwa [show d - 1 + 1 = d by omega] at this

theorem harmless_exchanged : ∀ k, k ≤ 43 → ∀ d, 0 < d → d < 58 → harmless (57 * d * 58 ^ k) = true := by
  have h : ((List.range 44).all fun k => (List.range 57).all fun d => harmless (57 * (d + 1) * 58 ^ k)) = true := by decide +kernel
  intro k hk d h1 h2
  have := List.all_eq_true.1 (List.all_eq_true.1 h k (List.mem_range.2 (by omega))) (d - 1) (List.mem_range.2 (by omega))
  rwa [show d - 1 + 1 = d by omega] at this

end Mistyped
end Cardano.Props
