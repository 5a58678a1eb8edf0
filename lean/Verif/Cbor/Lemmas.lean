import Verif.Cbor.Model
import Verif.Cbor.Spec
/-! # The reader accepts what the encoder writes: helper lemmas -/
set_option autoImplicit false

namespace Cardano.Cbor

theorem beBytes_length (k n : Nat) : (beBytes k n).length = k := by
  induction k with
  | zero => rfl
  | succ k ih => simp [beBytes, ih]

theorem beVal_foldl (b : Bytes) : ∀ a, b.foldl (fun a x => a * 256 + x.toNat) a = a * 256 ^ b.length + beVal b := by
  induction b with
  | nil => intro a; simp [beVal]
  | cons x b ih =>
    intro a
    unfold beVal
    simp only [List.foldl_cons]
    rw [ih, ih (0 * 256 + _)]
    simp only [List.length_cons, Nat.pow_succ, Nat.zero_mul, Nat.zero_add, Nat.add_mul]
    rw [Nat.mul_assoc, Nat.mul_comm 256]; omega

theorem beVal_cons (x : UInt8) (b : Bytes) : beVal (x :: b) = x.toNat * 256 ^ b.length + beVal b := by
  conv => lhs; unfold beVal
  simp only [List.foldl_cons]
  rw [beVal_foldl]; simp

theorem beVal_beBytes (k n : Nat) : beVal (beBytes k n) = n % 256 ^ k := by
  induction k with
  | zero => simp [beBytes, beVal, Nat.mod_one]
  | succ k ih =>
    rw [beBytes, beVal_cons, ih, beBytes_length, Nat.pow_succ, Nat.mod_mul]
    have : (UInt8.ofNat (n / 256 ^ k)).toNat = n / 256 ^ k % 256 := by simp
    rw [this, Nat.mul_comm]; omega

theorem beVal_lt (b : Bytes) : beVal b < 256 ^ b.length := by
  induction b with
  | nil => simp [beVal]
  | cons x b ih =>
    rw [beVal_cons]; simp only [List.length_cons, Nat.pow_succ]
    have := UInt8.toNat_lt x
    have h2 : (x.toNat + 1) * 256 ^ b.length ≤ 256 * 256 ^ b.length := Nat.mul_le_mul_right _ (by omega)
    rw [Nat.add_mul] at h2; rw [Nat.mul_comm (256 ^ _)]; omega

/-- Reading back a head. `m` is the major type. -/
theorem readHead_encHead (m : Nat) (hm : m < 8) (n : UInt64) (rest : Bytes) :
    ∃ ai, ai < 28 ∧ (m = 7 → True) ∧ readHead (encHead (UInt8.ofNat (m * 32)) n ++ rest) = some (m, ai, n.toNat, rest) ∧
      (n.toNat < 24 → ai = n.toNat) := by
  have hn := UInt64.toNat_lt n
  have key : ∀ a : Nat, a < 32 → (UInt8.ofNat (m * 32) ||| UInt8.ofNat a).toNat = m * 32 + a := by
    have : ∀ m : Fin 8, ∀ a : Fin 32, (UInt8.ofNat (m.val * 32) ||| UInt8.ofNat a.val).toNat = m.val * 32 + a.val := by
      decide +kernel
    intro a ha; exact this ⟨m, hm⟩ ⟨a, ha⟩
  have div : ∀ a, a < 32 → (m * 32 + a) / 32 = m := by intro a ha; omega
  have mod : ∀ a, a < 32 → (m * 32 + a) % 32 = a := by intro a ha; omega
  have big : ∀ (ai k : Nat), 24 ≤ ai → ai < 28 → k = 2 ^ (ai - 24) → n.toNat < 256 ^ k →
      readHead ((UInt8.ofNat (m * 32) ||| UInt8.ofNat ai) :: beBytes k n.toNat ++ rest) = some (m, ai, n.toNat, rest) := by
    intro ai k h1 h2 hk hlt
    simp only [List.cons_append, readHead]
    rw [key ai (by omega), div ai (by omega), mod ai (by omega)]
    rw [if_neg (by omega), if_pos h2, ← hk, if_neg (by simp [beBytes_length])]
    have ht : (beBytes k n.toNat ++ rest).take k = beBytes k n.toNat := by
      conv => lhs; arg 1; rw [← beBytes_length k n.toNat]
      simp
    have hd : (beBytes k n.toNat ++ rest).drop k = rest := by
      conv => lhs; arg 1; rw [← beBytes_length k n.toNat]
      simp
    rw [ht, hd, beVal_beBytes, Nat.mod_eq_of_lt hlt]
  unfold encHead
  split
  · rename_i h
    refine ⟨n.toNat, by omega, fun _ => trivial, ?_, fun _ => rfl⟩
    simp only [List.cons_append, List.nil_append, readHead]
    rw [key _ (by omega), div _ (by omega), mod _ (by omega), if_pos h]
  · rename_i h
    split
    · rename_i h8
      exact ⟨24, by omega, fun _ => trivial, big 24 1 (by omega) (by omega) (by decide) (by omega), fun hh => absurd hh h⟩
    · split
      · exact ⟨25, by omega, fun _ => trivial, big 25 2 (by omega) (by omega) (by decide) (by omega), fun hh => absurd hh h⟩
      · split
        · exact ⟨26, by omega, fun _ => trivial, big 26 4 (by omega) (by omega) (by decide) (by omega), fun hh => absurd hh h⟩
        · exact ⟨27, by omega, fun _ => trivial, big 27 8 (by omega) (by omega) (by decide) (by omega), fun hh => absurd hh h⟩

theorem encHead_length_pos (t : UInt8) (n : UInt64) : 1 ≤ (encHead t n).length := by
  unfold encHead; repeat' split
  all_goals simp

/-- `b` is an encoding of the item `x`: the reader gets `x` back, whatever follows. -/
def Enc (b : Bytes) (x : Item) : Prop :=
  1 ≤ b.length ∧ ∀ f, b.length ≤ f → ∀ rest, readItem f (b ++ rest) = some (x, rest)

theorem enc_uint (n : UInt64) : Enc (encUint n) (.uint n.toNat) := by
  refine ⟨encHead_length_pos _ _, fun f _ rest => ?_⟩
  obtain ⟨ai, h1, _, h2, _⟩ := readHead_encHead 0 (by omega) n rest
  have h2' : readHead (encUint n ++ rest) = some (0, ai, n.toNat, rest) := h2
  have : ¬ ai = 31 := by omega
  simp [readItem, readItemWith, h2', this]

theorem takeExactly_append (b rest : Bytes) : takeExactly b.length (b ++ rest) = some (b, rest) := by
  simp [takeExactly]

theorem ofNat64 (n : Nat) (h : n < 2 ^ 64) : (UInt64.ofNat n).toNat = n := by
  rw [UInt64.toNat_ofNat']; exact Nat.mod_eq_of_lt h

theorem enc_bytes (b : Bytes) (hb : b.length < 2 ^ 64) : Enc (encBytes b) (.bytes b) := by
  refine ⟨?_, fun f _ rest => ?_⟩
  · have := encHead_length_pos 0x40 (UInt64.ofNat b.length)
    simp [encBytes]; omega
  obtain ⟨ai, h1, _, h2, _⟩ := readHead_encHead 2 (by omega) (UInt64.ofNat b.length) (b ++ rest)
  rw [ofNat64 _ hb] at h2
  have e : encBytes b ++ rest = encHead (UInt8.ofNat (2 * 32)) (UInt64.ofNat b.length) ++ (b ++ rest) := by
    simp [encBytes]
  have : ¬ ai = 31 := by omega
  rw [e]
  unfold readItem readItemWith
  rw [h2]
  simp [this, takeExactly_append]

/-- Two lists related element by element. -/
inductive All2 {α β : Type} (R : α → β → Prop) : List α → List β → Prop where
  | nil : All2 R [] []
  | cons {a : α} {b : β} {as : List α} {bs : List β} : R a b → All2 R as bs → All2 R (a :: as) (b :: bs)

/-- Several encodings one after the other. -/
theorem readMany_flatten (bs : List Bytes) : ∀ (xs : List Item), All2 Enc bs xs →
    ∀ f, bs.flatten.length + 1 ≤ f → ∀ rest, readMany f (some xs.length) (bs.flatten ++ rest) = some (xs, rest) := by
  induction bs with
  | nil =>
    intro xs h f hf rest
    cases h
    match f, hf with
    | f + 1, _ => rfl
  | cons b bs ih =>
    intro xs h f hf rest
    cases h with
    | cons h1 h2 =>
      rename_i x xs
      match f, hf with
      | f + 1, hf =>
        simp only [List.flatten_cons, List.length_append] at hf
        have hb := h1.1
        simp only [List.length_cons, readMany, List.flatten_cons, List.append_assoc]
        have e := h1.2 f (by omega) (bs.flatten ++ rest)
        unfold readItem at e
        rw [e]
        simp only []
        rw [ih xs h2 f (by omega) rest]

theorem forall2_length {α β : Type} {R : α → β → Prop} {a : List α} {b : List β} (h : All2 R a b) :
    a.length = b.length := by
  induction h with
  | nil => rfl
  | cons _ _ ih => simp [ih]

theorem enc_array (bs : List Bytes) (xs : List Item) (h : All2 Enc bs xs) (hl : bs.length < 2 ^ 64) :
    Enc (encArray bs) (.array xs) := by
  have hp := encHead_length_pos 0x80 (UInt64.ofNat bs.length)
  refine ⟨by simp only [encArray, List.length_append]; omega, fun f hf rest => ?_⟩
  obtain ⟨ai, h1, _, h2, _⟩ := readHead_encHead 4 (by omega) (UInt64.ofNat bs.length) (bs.flatten ++ rest)
  rw [ofNat64 _ hl] at h2
  have e : encArray bs ++ rest = encHead (UInt8.ofNat (4 * 32)) (UInt64.ofNat bs.length) ++ (bs.flatten ++ rest) := by
    simp [encArray]
  have hi : ¬ ai = 31 := by omega
  simp only [encArray, List.length_append] at hf
  rw [e]
  have hm := readMany_flatten bs xs h f (by omega) rest
  rw [← forall2_length h] at hm
  unfold readItem readItemWith
  rw [h2]
  simp [hi, hm]

/-- Alternating keys and values. -/
def flatPairs : List (Item × Item) → List Item
  | [] => []
  | (k, v) :: r => k :: v :: flatPairs r

theorem flatPairs_length (l : List (Item × Item)) : (flatPairs l).length = 2 * l.length := by
  induction l with
  | nil => rfl
  | cons p l ih => obtain ⟨k, v⟩ := p; simp [flatPairs, ih]; omega

theorem enc_map (kvs : List (Bytes × Bytes)) (xs : List (Item × Item))
    (h : All2 (fun (b : Bytes × Bytes) (x : Item × Item) => Enc b.1 x.1 ∧ Enc b.2 x.2) kvs xs)
    (hl : kvs.length < 2 ^ 64) : Enc (encMap kvs) (.map (flatPairs xs)) := by
  have hp := encHead_length_pos 0xa0 (UInt64.ofNat kvs.length)
  have hflat : ∃ bs : List Bytes, bs.flatten = (kvs.map fun kv => kv.1 ++ kv.2).flatten ∧
      All2 Enc bs (flatPairs xs) := by
    clear hl hp
    induction h with
    | nil => exact ⟨[], rfl, .nil⟩
    | cons h1 _ ih =>
      rename_i b x bs xs _
      obtain ⟨l, e, hf⟩ := ih
      exact ⟨b.1 :: b.2 :: l, by simp [e], .cons h1.1 (.cons h1.2 hf)⟩
  obtain ⟨bs, ebs, hbs⟩ := hflat
  refine ⟨by simp only [encMap, List.length_append]; omega, fun f hf rest => ?_⟩
  obtain ⟨ai, h1, _, h2, _⟩ := readHead_encHead 5 (by omega) (UInt64.ofNat kvs.length) (bs.flatten ++ rest)
  rw [ofNat64 _ hl] at h2
  have e : encMap kvs ++ rest = encHead (UInt8.ofNat (5 * 32)) (UInt64.ofNat kvs.length) ++ (bs.flatten ++ rest) := by
    simp [encMap, ebs]
  have hi : ¬ ai = 31 := by omega
  simp only [encMap, List.length_append, ← ebs] at hf
  rw [e]
  have hm := readMany_flatten bs _ hbs f (by omega) rest
  rw [flatPairs_length, ← forall2_length h] at hm
  have heven : (flatPairs xs).length % 2 = 0 := by rw [flatPairs_length]; omega
  unfold readItem readItemWith
  rw [h2]
  simp [hi, hm, heven]

theorem enc_tag (n : UInt64) (b : Bytes) (x : Item) (h : Enc b x) : Enc (encTag n b) (.tag n.toNat x) := by
  have hp := encHead_length_pos 0xc0 n
  refine ⟨by simp only [encTag, List.length_append]; omega, fun f hf rest => ?_⟩
  obtain ⟨ai, h1, _, h2, _⟩ := readHead_encHead 6 (by omega) n (b ++ rest)
  have e : encTag n b ++ rest = encHead (UInt8.ofNat (6 * 32)) n ++ (b ++ rest) := by simp [encTag]
  have hi : ¬ ai = 31 := by omega
  simp only [encTag, List.length_append] at hf
  rw [e]
  have hm := readMany_flatten [b] [x] (.cons h .nil) f (by simp; omega) rest
  simp at hm
  unfold readItem readItemWith
  rw [h2]
  simp [hi, hm]

theorem enc_bool (b : Bool) : Enc (encBool b) (.simple (if b then 21 else 20)) := by
  refine ⟨by cases b <;> decide, fun f _ rest => ?_⟩
  cases b <;> simp [encBool, readItem, readItemWith, readHead]

theorem enc_nil : Enc encNil (.simple 22) := by
  refine ⟨by decide, fun f _ rest => ?_⟩
  simp [encNil, readItem, readItemWith, readHead]

theorem Enc.parseFirst {b : Bytes} {x : Item} (h : Enc b x) (rest : Bytes) : parseFirst (b ++ rest) = some (x, rest) :=
  h.2 _ (by simp) rest

theorem Enc.parse {b : Bytes} {x : Item} (h : Enc b x) : parse b = some x := by
  have := h.parseFirst []
  rw [List.append_nil] at this
  simp [Cbor.parse, this]

/-- Two encodings of items that agree as bytes (with any suffixes) denote the same item and suffix. -/
theorem Enc.inj {b b' : Bytes} {x x' : Item} (h : Enc b x) (h' : Enc b' x') (r r' : Bytes) (e : b ++ r = b' ++ r') :
    x = x' ∧ r = r' := by
  have h1 := h.2 (b.length + b'.length) (by omega) r
  have h2 := h'.2 (b.length + b'.length) (by omega) r'
  rw [e, h2] at h1
  cases h1; exact ⟨rfl, rfl⟩

end Cardano.Cbor
