import Verif.Ledger.Metadata
import Verif.Props.Metadata
import Verif.Props.Order
/-!
# Property C120: the ledger's rules for metadata
-/
set_option autoImplicit false

namespace Cardano.Props
open Cbor TxSpec Transaction TxBuilder Addr Bip32
open Ledger (read refOf outOf Env UTxO Metadatum LabelMap AuxData Utf8 MetadataRule ValidMetadata)

/-- Go values that can be metadata values: integers of 64 bits, byte strings and texts of at most 64 bytes, slices, maps and structs of such. -/
def Storable : GoVal → Prop
  | .nil => False
  | .bool _ => False
  | .uint _ => True
  | .int _ => True
  | .bytes b => b.length ≤ 64
  | .text s => s.length ≤ 64 ∧ Utf8 s
  | .list n xs => ∀ i : Fin n, Storable (xs i)
  | .map n ks vs => (∀ i : Fin n, Storable (ks i)) ∧ ∀ i, Storable (vs i)
  | .float64 _ => False
  | .float32 _ => False
  | .big n => -2 ^ 64 ≤ n ∧ n < 2 ^ 64
  | .record n ks vs => (∀ i : Fin n, Storable (ks i)) ∧ ∀ i, Storable (vs i)
  | .tag _ _ => False
  | .raw b => ∃ x, parse b = some x ∧ Metadatum x

/-- Go values that can be labels. -/
def IsLabel : GoVal → Prop
  | .uint _ => True
  | .int n => 0 ≤ n.toInt
  | .big n => 0 ≤ n ∧ n < 2 ^ 64
  | .raw b => ∃ n, parse b = some (.uint n)
  | _ => False

/-- Maps from labels to values, structs whose fields have labels for keys. -/
def Labelled : GoVal → Prop
  | .map n ks vs => (∀ i : Fin n, IsLabel (ks i)) ∧ ∀ i, Storable (vs i)
  | .record n ks vs => (∀ i : Fin n, IsLabel (ks i)) ∧ ∀ i, Storable (vs i)
  | .raw b => ∃ x, parse b = some x ∧ LabelMap x
  | _ => False

/-- Slices. -/
def IsSlice : GoVal → Prop
  | .list _ _ => True
  | .raw b => ∃ l, parse b = some (.array l)
  | _ => False

/-- Go values that the ledger takes as auxiliary data: a map or a struct from labels to values, a slice of such a map and a slice, or something with the tag 259. -/
def GoodAux : GoVal → Prop
  | .map n ks vs => Labelled (.map n ks vs)
  | .record n ks vs => Labelled (.record n ks vs)
  | .list n xs => ∃ h : n = 2, Labelled (xs ⟨0, by omega⟩) ∧ IsSlice (xs ⟨1, by omega⟩)
  | .tag t _ => t.toNat = 259
  | .raw b => ∃ x, parse b = some x ∧ AuxData x
  | _ => False

theorem mem_flatPairs (ps : List (Item × Item)) (y : Item) : y ∈ flatPairs ps ↔ ∃ p ∈ ps, y = p.1 ∨ y = p.2 := by
  induction ps with
  | nil => simp [flatPairs]
  | cons p ps ih =>
    obtain ⟨k, v⟩ := p
    simp only [flatPairs, List.mem_cons, ih]
    constructor
    · rintro (h | h | ⟨p, hp, h⟩)
      · exact ⟨(k, v), .inl rfl, .inl h⟩
      · exact ⟨(k, v), .inl rfl, .inr h⟩
      · exact ⟨p, .inr hp, h⟩
    · rintro ⟨p, rfl | hp, h⟩
      · rcases h with h | h
        · exact .inl h
        · exact .inr (.inl h)
      · exact .inr (.inr ⟨p, hp, h⟩)

theorem mem_fields {n : Nat} {ki vi : Fin n → Item} (i : Fin n) : (ki i, vi i) ∈ List.ofFn fun i => (ki i, vi i) := (List.mem_ofFn' _ _).2 ⟨i, rfl⟩

theorem mem_order {n : Nat} {order : List (Fin n)} (h : order.Perm (List.finRange n)) (i : Fin n) : i ∈ order :=
  h.mem_iff.2 (List.mem_finRange i)

/-- The item is allowed exactly if the value is. -/
theorem metadatum_iff (v : GoVal) : ∀ x, Represents v x → (Metadatum x ↔ Storable v) := by
  induction v with
  | nil =>
    intro x h
    rw [show x = .simple 22 from h]
    exact ⟨nofun, False.elim⟩
  | bool b =>
    intro x h
    rw [show x = .simple (if b then 21 else 20) from h]
    exact ⟨nofun, False.elim⟩
  | uint n =>
    intro x h
    refine ⟨fun _ => trivial, fun _ => ?_⟩
    cases x with
    | uint m => exact .uint m
    | nint m => exact .nint m
    | _ => exact h.elim
  | int n =>
    intro x h
    refine ⟨fun _ => trivial, fun _ => ?_⟩
    cases x with
    | uint m => exact .uint m
    | nint m => exact .nint m
    | _ => exact h.elim
  | bytes b =>
    intro x h
    rw [show x = .bytes b from h]
    exact ⟨fun h => by cases h; assumption, fun h => .bytes b h⟩
  | text s =>
    intro x h
    rw [show x = .text s from h]
    exact ⟨fun h => by cases h; exact ⟨‹_›, ‹_›⟩, fun h => .text s h.1 h.2⟩
  | list n xs ih =>
    rintro x ⟨is, rfl, h⟩
    constructor
    · intro hm i
      cases hm with
      | array _ hm => exact (ih i (is i) (h i)).1 (hm _ ((List.mem_ofFn' is _).2 ⟨i, rfl⟩))
    · intro hs
      refine .array _ fun y hy => ?_
      obtain ⟨i, rfl⟩ := (List.mem_ofFn' is _).1 hy
      exact (ih i (is i) (h i)).2 (hs i)
  | map n ks vs ihk ihv =>
    rintro x ⟨ki, vi, order, ho, rfl, hk, hv⟩
    constructor
    · intro hm
      cases hm with
      | map _ hm =>
        have hin : ∀ i, (ki i, vi i) ∈ order.map fun i => (ki i, vi i) := fun i => List.mem_map.2 ⟨i, mem_order ho i, rfl⟩
        exact ⟨fun i => (ihk i _ (hk i)).1 (hm _ ((mem_flatPairs _ _).2 ⟨_, hin i, .inl rfl⟩)),
          fun i => (ihv i _ (hv i)).1 (hm _ ((mem_flatPairs _ _).2 ⟨_, hin i, .inr rfl⟩))⟩
    · rintro ⟨h1, h2⟩
      refine .map _ fun y hy => ?_
      obtain ⟨p, hp, h⟩ := (mem_flatPairs _ _).1 hy
      obtain ⟨i, -, rfl⟩ := List.mem_map.1 hp
      rcases h with rfl | rfl
      · exact (ihk i _ (hk i)).2 (h1 i)
      · exact (ihv i _ (hv i)).2 (h2 i)
  | float64 bits => rintro x ⟨w, b, rfl, -⟩; exact ⟨nofun, False.elim⟩
  | float32 bits => rintro x ⟨w, b, rfl, -⟩; exact ⟨nofun, False.elim⟩
  | big n =>
    intro x h
    have h : BigItem n x := h
    unfold BigItem at h
    split at h
    · rename_i hn
      refine ⟨fun _ => hn, fun _ => ?_⟩
      cases x with
      | uint m => exact .uint m
      | nint m => exact .nint m
      | _ => exact h.elim
    · rename_i hn
      split at h
      · obtain ⟨b, rfl, -⟩ := h; exact ⟨nofun, fun h => absurd h hn⟩
      · obtain ⟨b, rfl, -⟩ := h; exact ⟨nofun, fun h => absurd h hn⟩
  | record n ks vs ihk ihv =>
    rintro x ⟨ki, vi, rfl, hk, hv⟩
    constructor
    · intro hm
      cases hm with
      | map _ hm =>
        exact ⟨fun i => (ihk i _ (hk i)).1 (hm _ ((mem_flatPairs _ _).2 ⟨_, mem_fields i, .inl rfl⟩)),
          fun i => (ihv i _ (hv i)).1 (hm _ ((mem_flatPairs _ _).2 ⟨_, mem_fields i, .inr rfl⟩))⟩
    · rintro ⟨h1, h2⟩
      refine .map _ fun y hy => ?_
      obtain ⟨p, hp, h⟩ := (mem_flatPairs _ _).1 hy
      obtain ⟨i, rfl⟩ := (List.mem_ofFn' _ _).1 hp
      rcases h with rfl | rfl
      · exact (ihk i _ (hk i)).2 (h1 i)
      · exact (ihv i _ (hv i)).2 (h2 i)
  | tag t v => rintro x ⟨y, rfl, -⟩; exact ⟨nofun, False.elim⟩
  | raw b =>
    intro x h
    have h : parse b = some x := h
    exact ⟨fun hm => ⟨x, h, hm⟩, fun ⟨y, hy, hm⟩ => by rw [h] at hy; injection hy with hy; subst hy; exact hm⟩

theorem label_iff (v : GoVal) (x : Item) (h : Represents v x) : (∃ n, x = .uint n) ↔ IsLabel v := by
  cases v with
  | nil => rw [show x = .simple 22 from h]; exact ⟨(by rintro ⟨_, h⟩; cases h), False.elim⟩
  | bool b => rw [show x = .simple (if b then 21 else 20) from h]; exact ⟨(by rintro ⟨_, h⟩; cases h), False.elim⟩
  | uint n =>
    refine ⟨fun _ => trivial, fun _ => ?_⟩
    cases x with
    | uint m => exact ⟨m, rfl⟩
    | nint m =>
      have h : (n.toNat : Int) = -1 - (m : Int) := h
      omega
    | _ => exact h.elim
  | int n =>
    cases x with
    | uint m =>
      have h : n.toInt = (m : Int) := h
      exact ⟨fun _ => (by omega : 0 ≤ n.toInt), fun _ => ⟨m, rfl⟩⟩
    | nint m =>
      have h : n.toInt = -1 - (m : Int) := h
      refine ⟨?_, fun hl => ?_⟩
      · rintro ⟨_, h⟩; cases h
      · have hl : 0 ≤ n.toInt := hl
        omega
    | _ => exact h.elim
  | bytes b => rw [show x = .bytes b from h]; exact ⟨(by rintro ⟨_, h⟩; cases h), False.elim⟩
  | text b => rw [show x = .text b from h]; exact ⟨(by rintro ⟨_, h⟩; cases h), False.elim⟩
  | list n xs => obtain ⟨is, rfl, -⟩ := h; exact ⟨(by rintro ⟨_, h⟩; cases h), False.elim⟩
  | map n ks vs => obtain ⟨_, _, _, -, rfl, -⟩ := h; exact ⟨(by rintro ⟨_, h⟩; cases h), False.elim⟩
  | float64 bits => obtain ⟨w, b, rfl, -⟩ := h; exact ⟨(by rintro ⟨_, h⟩; cases h), False.elim⟩
  | float32 bits => obtain ⟨w, b, rfl, -⟩ := h; exact ⟨(by rintro ⟨_, h⟩; cases h), False.elim⟩
  | record n ks vs => obtain ⟨_, _, rfl, -⟩ := h; exact ⟨(by rintro ⟨_, h⟩; cases h), False.elim⟩
  | tag t v => obtain ⟨_, rfl, -⟩ := h; exact ⟨(by rintro ⟨_, h⟩; cases h), False.elim⟩
  | raw b =>
    have h : parse b = some x := h
    exact ⟨fun ⟨n, hn⟩ => ⟨n, by rw [h, hn]⟩, fun ⟨n, hn⟩ => ⟨n, by rw [h] at hn; injection hn⟩⟩
  | big n =>
    have h : BigItem n x := h
    unfold BigItem at h
    split at h
    · rename_i hn
      cases x with
      | uint m =>
        have h : n = (m : Int) := h
        exact ⟨fun _ => ⟨by omega, hn.2⟩, fun _ => ⟨m, rfl⟩⟩
      | nint m =>
        have h : n = -1 - (m : Int) := h
        refine ⟨?_, fun hl => ?_⟩
        · rintro ⟨_, h⟩; cases h
        · have hl : 0 ≤ n ∧ n < 2 ^ 64 := hl
          omega
      | _ => exact h.elim
    · rename_i hn
      have hno : ¬ IsLabel (.big n) := fun hl => by
        have hl : 0 ≤ n ∧ n < 2 ^ 64 := hl
        omega
      split at h
      · obtain ⟨b, rfl, -⟩ := h; exact ⟨(by rintro ⟨_, h⟩; cases h), fun h => absurd h hno⟩
      · obtain ⟨b, rfl, -⟩ := h; exact ⟨(by rintro ⟨_, h⟩; cases h), fun h => absurd h hno⟩

/-- Reading labels: possible exactly if all keys are natural numbers. -/
theorem pairs_flat (l : List (Item × Item)) : (∃ ps, Ledger.pairs (flatPairs l) = some ps ∧ ∀ p ∈ ps, Metadatum p.2) ↔
    ∀ p ∈ l, (∃ n, p.1 = .uint n) ∧ Metadatum p.2 := by
  induction l with
  | nil => exact ⟨fun _ => nofun, fun _ => ⟨[], rfl, nofun⟩⟩
  | cons p l ih =>
    obtain ⟨k, v⟩ := p
    constructor
    · rintro ⟨ps, h, hv⟩
      cases k with
      | uint n =>
        have h : (Ledger.pairs (flatPairs l)).map ((n, v) :: ·) = some ps := h
        obtain ⟨qs, hq, rfl⟩ := Option.map_eq_some_iff.1 h
        intro p hp
        rcases List.mem_cons.1 hp with rfl | hp
        · exact ⟨⟨n, rfl⟩, hv (n, v) (by simp)⟩
        · exact ih.1 ⟨qs, hq, fun q hq => hv q (by simp [hq])⟩ p hp
      | _ => simp [flatPairs, Ledger.pairs] at h
    · intro h
      obtain ⟨⟨n, hn⟩, hm⟩ := h (k, v) (by simp)
      obtain ⟨ps, hp, hv⟩ := ih.2 fun p hp => h p (by simp [hp])
      refine ⟨(n, v) :: ps, ?_, ?_⟩
      · show Ledger.pairs (k :: v :: flatPairs l) = _
        rw [show k = .uint n from hn]
        show (Ledger.pairs (flatPairs l)).map ((n, v) :: ·) = _
        rw [hp]; rfl
      · intro q hq
        rcases List.mem_cons.1 hq with rfl | hq
        · exact hm
        · exact hv q hq

theorem labelMap_iff (v : GoVal) (x : Item) (h : Represents v x) : LabelMap x ↔ Labelled v := by
  cases v with
  | nil => rw [show x = .simple 22 from h]; exact ⟨False.elim, False.elim⟩
  | bool b => rw [show x = .simple (if b then 21 else 20) from h]; exact ⟨False.elim, False.elim⟩
  | uint n =>
    cases x with
    | map m => exact h.elim
    | _ => exact ⟨False.elim, False.elim⟩
  | int n =>
    cases x with
    | map m => exact h.elim
    | _ => exact ⟨False.elim, False.elim⟩
  | bytes b => rw [show x = .bytes b from h]; exact ⟨False.elim, False.elim⟩
  | text b => rw [show x = .text b from h]; exact ⟨False.elim, False.elim⟩
  | list n xs => obtain ⟨is, rfl, -⟩ := h; exact ⟨False.elim, False.elim⟩
  | map n ks vs =>
    obtain ⟨ki, vi, order, ho, rfl, hk, hv⟩ := h
    refine (pairs_flat _).trans ⟨fun h => ⟨fun i => ?_, fun i => ?_⟩, fun h p hp => ?_⟩
    · exact (label_iff _ _ (hk i)).1 (h _ (List.mem_map.2 ⟨i, mem_order ho i, rfl⟩)).1
    · exact (metadatum_iff _ _ (hv i)).1 (h _ (List.mem_map.2 ⟨i, mem_order ho i, rfl⟩)).2
    · obtain ⟨i, -, rfl⟩ := List.mem_map.1 hp
      exact ⟨(label_iff _ _ (hk i)).2 (h.1 i), (metadatum_iff _ _ (hv i)).2 (h.2 i)⟩
  | float64 bits => obtain ⟨w, b, rfl, -⟩ := h; exact ⟨False.elim, False.elim⟩
  | float32 bits => obtain ⟨w, b, rfl, -⟩ := h; exact ⟨False.elim, False.elim⟩
  | big n =>
    cases x with
    | map m =>
      have h : BigItem n (.map m) := h
      unfold BigItem at h
      split at h
      · exact h.elim
      · split at h
        · obtain ⟨_, h, -⟩ := h; cases h
        · obtain ⟨_, h, -⟩ := h; cases h
    | _ => exact ⟨False.elim, False.elim⟩
  | tag t v => obtain ⟨_, rfl, -⟩ := h; exact ⟨False.elim, False.elim⟩
  | raw b =>
    have h : parse b = some x := h
    exact ⟨fun hm => ⟨x, h, hm⟩, fun ⟨y, hy, hm⟩ => by rw [h] at hy; injection hy with hy; subst hy; exact hm⟩
  | record n ks vs =>
    obtain ⟨ki, vi, rfl, hk, hv⟩ := h
    refine (pairs_flat _).trans ⟨fun h => ⟨fun i => ?_, fun i => ?_⟩, fun h p hp => ?_⟩
    · exact (label_iff _ _ (hk i)).1 (h _ (mem_fields i)).1
    · exact (metadatum_iff _ _ (hv i)).1 (h _ (mem_fields i)).2
    · obtain ⟨i, rfl⟩ := (List.mem_ofFn' _ _).1 hp
      exact ⟨(label_iff _ _ (hk i)).2 (h.1 i), (metadatum_iff _ _ (hv i)).2 (h.2 i)⟩

theorem slice_iff (v : GoVal) (x : Item) (h : Represents v x) : (∃ l, x = .array l) ↔ IsSlice v := by
  cases v with
  | nil => rw [show x = .simple 22 from h]; exact ⟨(by rintro ⟨_, h⟩; cases h), False.elim⟩
  | bool b => rw [show x = .simple (if b then 21 else 20) from h]; exact ⟨(by rintro ⟨_, h⟩; cases h), False.elim⟩
  | uint n =>
    cases x with
    | array l => exact h.elim
    | _ => exact ⟨(by rintro ⟨_, h⟩; cases h), False.elim⟩
  | int n =>
    cases x with
    | array l => exact h.elim
    | _ => exact ⟨(by rintro ⟨_, h⟩; cases h), False.elim⟩
  | bytes b => rw [show x = .bytes b from h]; exact ⟨(by rintro ⟨_, h⟩; cases h), False.elim⟩
  | text b => rw [show x = .text b from h]; exact ⟨(by rintro ⟨_, h⟩; cases h), False.elim⟩
  | list n xs => obtain ⟨is, rfl, -⟩ := h; exact ⟨fun _ => trivial, fun _ => ⟨_, rfl⟩⟩
  | map n ks vs => obtain ⟨_, _, _, -, rfl, -⟩ := h; exact ⟨(by rintro ⟨_, h⟩; cases h), False.elim⟩
  | float64 bits => obtain ⟨w, b, rfl, -⟩ := h; exact ⟨(by rintro ⟨_, h⟩; cases h), False.elim⟩
  | float32 bits => obtain ⟨w, b, rfl, -⟩ := h; exact ⟨(by rintro ⟨_, h⟩; cases h), False.elim⟩
  | record n ks vs => obtain ⟨_, _, rfl, -⟩ := h; exact ⟨(by rintro ⟨_, h⟩; cases h), False.elim⟩
  | tag t v => obtain ⟨_, rfl, -⟩ := h; exact ⟨(by rintro ⟨_, h⟩; cases h), False.elim⟩
  | raw b =>
    have h : parse b = some x := h
    exact ⟨fun ⟨l, hl⟩ => ⟨l, by rw [h, hl]⟩, fun ⟨l, hl⟩ => ⟨l, by rw [h] at hl; injection hl⟩⟩
  | big n =>
    refine ⟨?_, False.elim⟩
    rintro ⟨l, rfl⟩
    have h : BigItem n (.array l) := h
    unfold BigItem at h
    split at h
    · exact h.elim
    · split at h
      · obtain ⟨_, h, -⟩ := h; cases h
      · obtain ⟨_, h, -⟩ := h; cases h

/-- The second form of auxiliary data. -/
theorem auxData_array (l : List Item) : AuxData (.array l) ↔ ∃ m ys, l = [m, .array ys] ∧ LabelMap m := by
  constructor
  · intro h
    unfold AuxData at h
    split at h
    · rename_i h'; cases h'
    · rename_i m ys h'; injection h' with h'; exact ⟨m, ys, h', h⟩
    · rename_i h'; cases h'
    · exact h.elim
  · rintro ⟨m, ys, rfl, h⟩; exact h

theorem auxData_iff (v : GoVal) (x : Item) (h : Represents v x) : AuxData x ↔ GoodAux v := by
  cases v with
  | nil => rw [show x = .simple 22 from h]; exact ⟨False.elim, False.elim⟩
  | bool b => rw [show x = .simple (if b then 21 else 20) from h]; exact ⟨False.elim, False.elim⟩
  | uint n =>
    cases x with
    | uint m => exact ⟨False.elim, False.elim⟩
    | nint m => exact ⟨False.elim, False.elim⟩
    | _ => exact h.elim
  | int n =>
    cases x with
    | uint m => exact ⟨False.elim, False.elim⟩
    | nint m => exact ⟨False.elim, False.elim⟩
    | _ => exact h.elim
  | bytes b => rw [show x = .bytes b from h]; exact ⟨False.elim, False.elim⟩
  | text b => rw [show x = .text b from h]; exact ⟨False.elim, False.elim⟩
  | map n ks vs =>
    obtain ⟨ki, vi, order, ho, rfl, hk, hv⟩ := h
    exact labelMap_iff (.map n ks vs) _ ⟨ki, vi, order, ho, rfl, hk, hv⟩
  | list n xs =>
    obtain ⟨is, rfl, h⟩ := h
    rw [auxData_array]
    constructor
    · rintro ⟨m, ys, hl, hm⟩
      have hn : n = 2 := by
        have := congrArg List.length hl
        simpa using this
      subst hn
      have e : List.ofFn is = [is 0, is 1] := by simp [List.ofFn_succ]
      rw [e] at hl
      injection hl with e0 hl
      injection hl with e1
      exact ⟨rfl, (labelMap_iff _ _ (h 0)).1 (by rw [e0]; exact hm), (slice_iff _ _ (h 1)).1 ⟨ys, e1⟩⟩
    · rintro ⟨rfl, hl, hs⟩
      obtain ⟨ys, hy⟩ := (slice_iff _ _ (h 1)).2 hs
      exact ⟨is 0, ys, by rw [← hy]; simp [List.ofFn_succ], (labelMap_iff _ _ (h 0)).2 hl⟩
  | record n ks vs =>
    obtain ⟨ki, vi, rfl, hk, hv⟩ := h
    exact labelMap_iff (.record n ks vs) _ ⟨ki, vi, rfl, hk, hv⟩
  | float64 bits => obtain ⟨w, b, rfl, -⟩ := h; exact ⟨False.elim, False.elim⟩
  | float32 bits => obtain ⟨w, b, rfl, -⟩ := h; exact ⟨False.elim, False.elim⟩
  | big n =>
    refine ⟨fun ha => ?_, False.elim⟩
    have h : BigItem n x := h
    unfold BigItem at h
    split at h
    · cases x with
      | uint m => exact ha.elim
      | nint m => exact ha.elim
      | _ => exact h.elim
    · split at h
      · obtain ⟨b, rfl, -⟩ := h; exact ha.elim
      · obtain ⟨b, rfl, -⟩ := h; exact ha.elim
  | tag t v =>
    obtain ⟨y, rfl, -⟩ := h
    show AuxData (.tag t.toNat y) ↔ t.toNat = 259
    generalize t.toNat = m
    constructor
    · intro h
      unfold AuxData at h
      split at h
      · rename_i h'; cases h'
      · rename_i h'; cases h'
      · rename_i h'; injection h'
      · exact h.elim
    · rintro rfl; trivial
  | raw b =>
    have h : parse b = some x := h
    exact ⟨fun hm => ⟨x, h, hm⟩, fun ⟨y, hy, hm⟩ => by rw [h] at hy; injection hy with hy; subst hy; exact hm⟩

/-! ### C120 -/

/-- **C120, what the chain does not allow it rejects.** A transaction whose metadata is not of the prescribed form (a text of more than 64
bytes, a truth value, a nil, a label that is not a natural number, ...) is never accepted, whatever else is in it. -/
theorem C120_rejected (C : Crypto) (hH : ∀ m, (C.blake256 m).length = 32) (t : Tx) (k : Nat) (bs : Bytes) (v : GoVal) (md : Metadata)
    (hm : t.metadata = some md) (hv : IsMeta v md) (hf : v.Fits) (hbad : ¬ GoodAux v) (hb : BodyFits t.body) (hw : WitnessFits t.witness)
    (h : Transaction.bytes C t k = .ok bs) (L : Ledger.Crypto) (e : Env) (u : UTxO) : ¬ ValidMetadata L e u bs := by
  rintro ⟨tv, hr, ha, hrule⟩
  obtain ⟨b1, b2, x, e1, e2, h3, h4, h5⟩ := read_meta C hH t k bs v md hm hv hf hb hw h tv hr
  by_cases hc : Container v
  · rw [readAux_container v x b2 h4 hc] at h5
    injection h5 with h5
    obtain ⟨y, hy, hya⟩ := hrule b2 h5.symm
    obtain ⟨b2', e2', hb2⟩ := hv (k + 1)
    rw [e2] at e2'; injection e2' with e2'; subst e2'
    obtain ⟨x', hx', hr'⟩ := enc_of_encodes v b2 hf hb2
    rw [hx'.parse] at hy
    injection hy with hy
    subst hy
    exact hbad ((auxData_iff v _ hr').1 hya)
  · exact C88_empty_metadata_rejected C hH t k bs v md hm hv hf hc hb hw h L e u ⟨tv, hr, ha⟩

/-- **C120 (partial).** If a transaction is accepted apart from its metadata, then it is accepted with it exactly if the metadata is of the
prescribed form. Missing: the builder does not tell; see `C120_unreported`. -/
theorem C120_exact_partial (C : Crypto) (hH : ∀ m, (C.blake256 m).length = 32) (t : Tx) (k : Nat) (bs : Bytes) (v : GoVal) (md : Metadata)
    (hm : t.metadata = some md) (hv : IsMeta v md) (hf : v.Fits) (hb : BodyFits t.body) (hw : WitnessFits t.witness)
    (h : Transaction.bytes C t k = .ok bs) (L : Ledger.Crypto) (e : Env) (u : UTxO) (ha : Ledger.Valid L e u bs) :
    ValidMetadata L e u bs ↔ GoodAux v := by
  constructor
  · intro hval
    by_contra hbad
    exact C120_rejected C hH t k bs v md hm hv hf hbad hb hw h L e u hval
  · intro hg
    obtain ⟨tv, hr, ha⟩ := ha
    refine ⟨tv, hr, ha, fun m hm' => ?_⟩
    obtain ⟨b1, b2, x, e1, e2, h3, h4, h5⟩ := read_meta C hH t k bs v md hm hv hf hb hw h tv hr
    have hc : Container v := by
      cases v with
      | list _ _ => trivial
      | map _ _ _ => trivial
      | record _ _ _ => trivial
      | tag _ _ => exact hg
      | raw b =>
        obtain ⟨y, h1, h2⟩ := hg
        refine ⟨y, h1, ?_⟩
        unfold AuxData at h2
        split at h2
        · exact Or.inr (Or.inl ⟨_, rfl⟩)
        · exact Or.inl ⟨_, rfl⟩
        · exact Or.inr (Or.inr ⟨_, rfl⟩)
        · exact h2.elim
      | _ => exact hg.elim
    rw [readAux_container v x b2 h4 hc] at h5
    injection h5 with h5
    rw [← h5] at hm'
    injection hm' with hm'
    subst hm'
    obtain ⟨b2', e2', hb2⟩ := hv (k + 1)
    rw [e2] at e2'; injection e2' with e2'; subst e2'
    obtain ⟨x', hx', hr'⟩ := enc_of_encodes v b2 hf hb2
    exact ⟨x', hx'.parse, (auxData_iff v _ hr').2 hg⟩

/-- **C120, nothing is reported.** If `Bytes` succeeds without metadata, it succeeds with any. -/
theorem C120_bytes_unreported (C : Crypto) (t : Tx) (k : Nat) (v : GoVal) (md : Metadata) (hv : IsMeta v md)
    (bs : Bytes) (h : Transaction.bytes C { t with metadata := none } k = .ok bs) :
    ∃ bs', Transaction.bytes C { t with metadata := some md } k = .ok bs' := by
  obtain ⟨b1, e1, -⟩ := hv k
  obtain ⟨b2, e2, -⟩ := hv (k + 1)
  obtain ⟨body, h1, h2⟩ := bind_ok h
  have hb : t.body = body := by
    have h1 : Res.ok t.body = Res.ok body := h1
    injection h1
  subst hb
  obtain ⟨bb, h3, -⟩ := bind_ok h2
  obtain ⟨outs, h4, -⟩ := bind_ok h3
  have h4 : collect (t.body.outputs.map marshalOutput) = .ok outs := h4
  have hcalc : calcAux C { t with metadata := some md } k = .ok { t.body with auxHash := C.blake256 b1 } := by
    unfold calcAux
    simp only [e1]
  have hm : marshalMetadata (some md) (k + 1) = .ok b2 := e2
  unfold Transaction.bytes
  simp only [hcalc, Res.ok_bind, marshalTx, marshalBody, h4, hm]
  exact ⟨_, rfl⟩

/-- **C120, sessions.** With the conditions of C77 and metadata that is always encoded the same way (C87), the whole session succeeds whatever the
metadata is, and the ledger accepts the result exactly if the metadata is of the prescribed form. -/
theorem C120_session_partial (H : Hashes) (hH : H.Ok) (blake224 blake256 : Bytes → Bytes) (h256 : ∀ m, (blake256 m).length = 32)
    (s : Session) (key pk : Bytes) (u : UTxO) (network slot fee : Nat) (bs : Bytes) (v : GoVal) (md : Metadata)
    (hm : s.metadata = some md) (hv : IsMeta v md) (hf : v.Fits) (ho : v.OrderFree) (hc : Container v)
    (hkeys : s.keys = [key]) (hk : key.length = 96 ∧ leNat (key.take 32) < 2 ^ 255) (hpk : (packageCrypto H blake256).publicKey key = .ok pk)
    (hu : Agrees blake224 u [pk] s.inputs) (hne : s.inputs ≠ []) (hdis : (s.inputs.map refOf).Nodup) (hlen : s.inputs.length < 2 ^ 63)
    (hout : ∀ o ∈ s.outputs, Receives network (Addr.bytes o.address) ∧ s.protocol.minUTXOValue.toNat ≤ o.amount.toNat) (hol : s.outputs.length < 2 ^ 32)
    (hch : Receives network (Addr.bytes s.change)) (httl : s.ttl ≠ 0 → slot < s.ttl.toNat)
    (hy : s.Yields (packageCrypto H blake256) fee bs) (hp : FeeProvisos s fee)
    (hI : sumIn s.inputs < 2 ^ 64)
    (hcover : sumOut s.outputs + fee + s.protocol.minUTXOValue.toNat ≤ sumIn s.inputs)
    (hsize : bs.length ≤ s.protocol.maxTxSize.toNat) :
    ValidMetadata (ledgerCrypto H blake224 blake256) (envOf s.protocol network slot) u bs ↔ GoodAux v := by
  have hgood : GoodMetadata s.metadata := by rw [hm]; exact (C87_order_free_partial v md hv hf ho).2.1 hc
  obtain ⟨tv, hr, ha, -, -, -, -, haux⟩ := C77_ledger_accepts_partial H hH blake224 blake256 h256 s key pk u network slot fee bs hkeys hk hpk hu hne hdis hlen
    hout hol hch hgood httl hy hp hI hcover hsize
  rcases haux with ⟨h, -⟩ | ⟨d, m, hd, hall, hta⟩
  · rw [hm] at h; cases h
  rw [hm] at hd; injection hd with hd; subst hd
  obtain ⟨b, hb, hmb⟩ := hv 0
  rw [hall 0] at hb; injection hb with hb; subst hb
  obtain ⟨x, hx, hrx⟩ := enc_of_encodes v m hf hmb
  rw [← auxData_iff v x hrx]
  constructor
  · rintro ⟨tv', hr', -, hrule⟩
    rw [hr] at hr'; injection hr' with hr'; subst hr'
    obtain ⟨y, hy, hya⟩ := hrule m hta
    rw [hx.parse] at hy; injection hy with hy; subst hy
    exact hya
  · intro hx'
    refine ⟨tv, hr, ha, fun m' hm' => ?_⟩
    rw [hta] at hm'; injection hm' with hm'; subst hm'
    exact ⟨x, hx.parse, hx'⟩

/-- The calls succeed, whatever the metadata is. -/
theorem C120_unreported (H : Hashes) (hH : H.Ok) (blake256 : Bytes → Bytes) (s : Session) (v : GoVal) (md : Metadata)
    (hm : s.metadata = some md) (hv : IsMeta v md) (hf : v.Fits) (ho : v.OrderFree) (hc : Container v)
    (hout : ∀ o ∈ s.outputs, ∃ b, marshalAddress o.address = .ok b) (hch : ∃ b, marshalAddress s.change = .ok b)
    (hk : ∀ k ∈ s.keys, k.length = 96 ∧ leNat (k.take 32) < 2 ^ 255) : ∃ fee bs, s.Yields (packageCrypto H blake256) fee bs :=
  C77_succeeds H hH blake256 s (by rw [hm]; exact (C87_order_free_partial v md hv hf ho).2.1 hc) hout hch hk

/-- A message of 65 letters, as in CIP-20. -/
def longMessage : GoVal := .map 1 (fun _ => .uint 674) (fun _ => .map 1 (fun _ => .text (asc ['m','s','g'])) fun _ => .list 1 fun _ => .text (List.replicate 65 0x61))

/-- The same in two pieces. -/
def shortMessage : GoVal :=
  .map 1 (fun _ => .uint 674) (fun _ => .map 1 (fun _ => .text (asc ['m','s','g'])) fun _ => .list 2 fun i => .text (if i = 0 then List.replicate 64 0x61 else [0x61]))

theorem longMessage_bad : longMessage.Fits ∧ longMessage.OrderFree ∧ Container longMessage ∧ ¬ GoodAux longMessage := by
  refine ⟨⟨by decide, fun _ => trivial, fun _ => ⟨by decide, fun _ => (by decide : (asc ['m','s','g']).length < 2 ^ 63), fun _ => ⟨by decide, fun _ => ?_⟩⟩⟩,
    ⟨by decide, fun _ => trivial, fun _ => ⟨by decide, fun _ => trivial, fun _ _ => trivial⟩⟩, trivial, ?_⟩
  · exact (by decide : (List.replicate 65 (0x61 : UInt8)).length < 2 ^ 63)
  · rintro ⟨-, h⟩
    have := ((h 0).2 0 0).1
    simp at this

theorem shortMessage_good : shortMessage.Fits ∧ shortMessage.OrderFree ∧ Container shortMessage ∧ GoodAux shortMessage := by
  refine ⟨⟨by decide, fun _ => trivial, fun _ => ⟨by decide, fun _ => (by decide : (asc ['m','s','g']).length < 2 ^ 63), fun _ => ⟨by decide, fun i => ?_⟩⟩⟩,
    ⟨by decide, fun _ => trivial, fun _ => ⟨by decide, fun _ => trivial, fun _ _ => trivial⟩⟩, trivial, ?_⟩
  · match i with
    | 0 => exact (by decide : (List.replicate 64 (0x61 : UInt8)).length < 2 ^ 63)
    | 1 => exact (by decide : ([0x61] : Bytes).length < 2 ^ 63)
  · refine ⟨fun _ => trivial, fun _ => ⟨fun _ => ⟨by decide, "msg", by decide⟩, fun _ i => ?_⟩⟩
    match i with
    | 0 => exact ⟨by decide, "aaaaaaaaaaaaaaaaaaaaaaaaaaaaaaaaaaaaaaaaaaaaaaaaaaaaaaaaaaaaaaaa", by decide +kernel⟩
    | 1 => exact ⟨by decide, "a", by decide⟩

/-- The struct `{Msg []string "cbor:"674,keyasint""; Note []byte "cbor:"675,keyasint""}` with values: two labels that are always written in the same order, where a map of two labels is
not (`twoLabels_ok`). C87 and C120 then say that the ledger accepts it. -/
def structMessage : GoVal :=
  .record 2 (fun i => .uint (if i = 0 then 674 else 675)) fun i => if i = 0 then .list 1 fun _ => .text [0x61] else .bytes [1, 2, 3]

example : structMessage.Fits ∧ structMessage.OrderFree ∧ Container structMessage ∧ GoodAux structMessage := by
  refine ⟨⟨by decide, fun _ => trivial, fun i => ?_⟩, ⟨fun _ => trivial, fun i => ?_⟩, trivial, fun _ => trivial, fun i => ?_⟩
  · match i with
    | 0 => exact ⟨by decide, fun _ => (by decide : ([0x61] : Bytes).length < 2 ^ 63)⟩
    | 1 => exact (by decide : ([1, 2, 3] : Bytes).length < 2 ^ 63)
  · match i with
    | 0 => exact fun _ => trivial
    | 1 => exact trivial
  · match i with
    | 0 => exact fun _ => ⟨by decide, "a", by decide⟩
    | 1 => exact (by decide : ([1, 2, 3] : Bytes).length ≤ 64)

/-- A number with a fraction (the float 1.5) under a label: C120 says that it is written without an error and that the ledger rejects it; so is an integer of 2^64 in a `big.Int`. -/
example : (let v : GoVal := .map 1 (fun _ => .uint 1) fun _ => .float64 0x3ff8000000000000; v.Fits ∧ v.OrderFree ∧ Container v ∧ ¬ GoodAux v) ∧
    (let v : GoVal := .map 1 (fun _ => .uint 1) fun _ => .big (2 ^ 64); v.OrderFree ∧ Container v ∧ ¬ GoodAux v) := by
  refine ⟨⟨⟨by decide, fun _ => trivial, fun _ => trivial⟩, ⟨by decide, fun _ => trivial, fun _ => trivial⟩, trivial, fun h => h.2 0⟩,
    ⟨by decide, fun _ => trivial, fun _ => trivial⟩, trivial, fun h => ?_⟩
  have := (h.2 0).2
  omega

/-- The value of a float: 1.5 is 3 times 2^1073 over 2^1074, in both widths. -/
example : floatVal 8 0x3ff8000000000000 = .fin false (3 * 2 ^ 1073) ∧ floatVal 4 0x3fc00000 = .fin false (3 * 2 ^ 1073) := by
  decide +kernel

/-- The encodings of the two messages. -/
def longBytes : Bytes := encMap [(encUint 674, encMap [(encText (asc ['m','s','g']), encArray [encText (List.replicate 65 0x61)])])]
def shortBytes : Bytes := encMap [(encUint 674, encMap [(encText (asc ['m','s','g']), encArray [encText (List.replicate 64 0x61), encText [0x61]])])]

theorem longBytes_ok : IsMeta longMessage ⟨fun _ => .ok longBytes⟩ := fun _ => ⟨_, rfl,
  Marshals.map 1 _ _ (fun _ => encUint 674) (fun _ => encMap [(encText (asc ['m','s','g']), encArray [encText (List.replicate 65 0x61)])]) [0]
    (fun _ => .uint 674) (fun _ => Marshals.map 1 _ _ (fun _ => encText (asc ['m','s','g'])) (fun _ => encArray [encText (List.replicate 65 0x61)]) [0]
      (fun _ => .text _) (fun _ => Marshals.list 1 _ (fun _ => encText (List.replicate 65 0x61)) fun _ => .text _) (by decide)) (by decide)⟩

theorem shortBytes_ok : IsMeta shortMessage ⟨fun _ => .ok shortBytes⟩ := fun _ => ⟨_, rfl,
  Marshals.map 1 _ _ (fun _ => encUint 674) (fun _ => encMap [(encText (asc ['m','s','g']), encArray [encText (List.replicate 64 0x61), encText [0x61]])]) [0]
    (fun _ => .uint 674) (fun _ => Marshals.map 1 _ _ (fun _ => encText (asc ['m','s','g']))
      (fun _ => encArray [encText (List.replicate 64 0x61), encText [0x61]]) [0]
      (fun _ => .text _) (fun _ => Marshals.list 2 _ (fun i => encText (if i = 0 then List.replicate 64 0x61 else [0x61])) fun _ => .text _) (by decide)) (by decide)⟩

/-- The session of the examples, with metadata. -/
def messageSession (m : Bytes) : Session := { sampleSession [sampleKey] 10000000 5000000 sampleAddr with metadata := some ⟨fun _ => .ok m⟩ }

/-- A hash of 32 bytes, for the examples. -/
def zeroHash : Bytes → Bytes := fun _ => List.replicate 32 0

theorem message_verdict (H : Hashes) (hH : H.Ok) (blake224 : Bytes → Bytes) (v : GoVal) (m : Bytes) (fee : UInt64) (hv : IsMeta v ⟨fun _ => .ok m⟩)
    (hf : v.Fits) (ho : v.OrderFree) (hc : Container v) (hm : m.length ≤ 200) (hfl : fee.toNat < 1000000) (hfl2 : 155381 ≤ fee.toNat)
    (hfee : (MinFee ⟨zeroHash, fun _ => .panic, fun _ _ => .panic⟩ (messageSession m).builder).1 = fee)
    (hbl : ∃ n, n ≤ 1000 ∧ sizeOf? (marshalBody ⟨[⟨List.replicate 32 7, 0, 10000000⟩], [⟨.base MainNet goldenPayment goldenStake, 5000000⟩,
      ⟨sampleAddr, totalIn [⟨List.replicate 32 7, 0, 10000000⟩] - totalOut [⟨.base MainNet goldenPayment goldenStake, 5000000⟩] - fee⟩], fee, 0,
      List.replicate 32 0⟩) = some n) :
    ∃ pk bs, (packageCrypto H zeroHash).publicKey sampleKey = .ok pk ∧ (messageSession m).Yields (packageCrypto H zeroHash) fee.toNat bs ∧
      (ValidMetadata (ledgerCrypto H blake224 zeroHash) (envOf (messageSession m).protocol 1 0) (sampleUTxO blake224 pk 10000000) bs ↔ GoodAux v) := by
  have hfee' : (MinFee (packageCrypto H zeroHash) (messageSession m).builder).1 = fee := by rw [← hfee]; rfl
  have hgood : GoodMetadata (messageSession m).metadata := (C87_order_free_partial v _ hv hf ho).2.1 hc
  obtain ⟨fee', bs, hy⟩ := C120_unreported H hH zeroHash (messageSession m) v _ rfl hv hf ho hc
    (by intro o h; rw [List.mem_singleton.1 h]; exact ⟨_, rfl⟩) ⟨_, rfl⟩ (by intro k h; rw [List.mem_singleton.1 h]; exact sampleKey_ok)
  have e := yields_fee _ _ _ _ hgood hy
  rw [hfee'] at e
  subst e
  obtain ⟨_, pk, -, s2, -⟩ := C37_signature_valid H hH sampleKey sampleKey_ok.1 sampleKey_ok.2 []
  have p1 := packageCrypto_publicKey H zeroHash sampleKey sampleKey_ok.1 sampleKey_ok.2
  rw [s2] at p1
  refine ⟨pk, bs, p1, hy, ?_⟩
  have hlen : bs.length ≤ 16384 := by
    obtain ⟨t, hb, -⟩ := hy
    obtain ⟨hbody, hval, body, h1, h2, h3⟩ := built_parts (packageCrypto H zeroHash) _ _ _ t bs m hb (fun _ => rfl)
    rw [hfee'] at hbody
    have hbody : t.body = ⟨[⟨List.replicate 32 7, 0, 10000000⟩], [⟨.base MainNet goldenPayment goldenStake, 5000000⟩,
      ⟨sampleAddr, totalIn [⟨List.replicate 32 7, 0, 10000000⟩] - totalOut [⟨.base MainNet goldenPayment goldenStake, 5000000⟩] - fee⟩], fee, 0,
      List.replicate 32 0⟩ := hbody
    rw [hbody] at h1
    obtain ⟨n, hn, hs⟩ := hbl
    rw [h1] at hs
    have hs : body.length = n := by injection hs
    have h3' := witnessesOf_lengths _ (package_key_length H zeroHash) (package_sig_length H hH zeroHash) _ _ _ h3
    have hk : (messageSession m).builder.xprvs ++ [] = [sampleKey] := by rw [List.append_nil]; rfl
    rw [hk] at h3'
    have hone : [sampleKey].length = 1 := rfl
    have hw := witness_length t.witness h3'.2 (by rw [h3'.1, hone]; omega)
    rw [h3'.1, hone, if_neg (by omega), show uintSize 1 = 1 from rfl] at hw
    have hbl : (encBool t.valid).length = 1 := by rw [hval]; rfl
    rw [h2, List.length_cons, List.length_append, List.length_append, List.length_append, hbl, hw]
    omega
  exact C120_session_partial H hH blake224 zeroHash (fun _ => by simp [zeroHash]) (messageSession m) sampleKey pk
    (sampleUTxO blake224 pk 10000000) 1 0 fee.toNat bs v _ rfl hv hf ho hc rfl sampleKey_ok p1
    ⟨by intro i hi; rw [List.mem_singleton.1 hi]; decide, by
      intro i hi; rw [List.mem_singleton.1 hi]
      exact ⟨_, if_pos rfl, pk, List.mem_singleton.2 rfl, 0x61, [], by rw [List.append_nil], by decide⟩⟩
    nofun (by simp [messageSession, sampleSession]) (by decide : 1 < 2 ^ 63)
    (by intro o ho; rw [List.mem_singleton.1 ho]; exact ⟨⟨by decide +kernel, _, _, rfl, by decide +kernel⟩, (by decide : (1000000 : UInt64).toNat ≤ (5000000 : UInt64).toNat)⟩)
    (by decide : 1 < 2 ^ 32) (show Receives 1 (Addr.bytes sampleAddr) from ⟨by decide +kernel, _, _, rfl, by decide +kernel⟩) (fun h => absurd rfl h) hy
    ⟨(by decide : 65536 ≤ (155381 : UInt64).toNat ∧ (155381 : UInt64).toNat < 2 ^ 31), (by decide : (44 : UInt64).toNat < 2 ^ 16), (by decide : (16384 : UInt64).toNat ≤ 16384),
      .inr (by
        show uintSize (10000000 - 5000000 - fee.toNat) ≤ uintSize (10000000 - 5000000 - 200000)
        rw [size5 _ (by omega) (by omega)]; decide),
      (by decide +kernel : (Addr.bytes sampleAddr).length ≤ 57), (by decide : 0 < (1000000 : UInt64).toNat)⟩
    (by show 10000000 + 0 < 2 ^ 64; decide) (by show 5000000 + fee.toNat + 1000000 ≤ 10000000; omega) hlen

/-- C120: the long message. All calls succeed; the ledger rejects. -/
example (H : Hashes) (hH : H.Ok) (blake224 : Bytes → Bytes) :
    ∃ pk fee bs, (messageSession longBytes).Yields (packageCrypto H zeroHash) fee bs ∧
      ¬ ValidMetadata (ledgerCrypto H blake224 zeroHash) (envOf (messageSession longBytes).protocol 1 0) (sampleUTxO blake224 pk 10000000) bs := by
  obtain ⟨pk, bs, -, h1, h2⟩ := message_verdict H hH blake224 longMessage longBytes 172761 longBytes_ok longMessage_bad.1 longMessage_bad.2.1 longMessage_bad.2.2.1
    (by decide) (by decide) (by decide) (by decide +kernel) ⟨212, by decide +kernel⟩
  exact ⟨pk, _, bs, h1, fun h => longMessage_bad.2.2.2 (h2.1 h)⟩

/-- C120: the message in pieces. The ledger accepts. -/
example (H : Hashes) (hH : H.Ok) (blake224 : Bytes → Bytes) :
    ∃ pk fee bs, (messageSession shortBytes).Yields (packageCrypto H zeroHash) fee bs ∧
      ValidMetadata (ledgerCrypto H blake224 zeroHash) (envOf (messageSession shortBytes).protocol 1 0) (sampleUTxO blake224 pk 10000000) bs := by
  obtain ⟨pk, bs, -, h1, h2⟩ := message_verdict H hH blake224 shortMessage shortBytes 172805 shortBytes_ok shortMessage_good.1 shortMessage_good.2.1 shortMessage_good.2.2.1
    (by decide) (by decide) (by decide) (by decide +kernel) ⟨212, by decide +kernel⟩
  exact ⟨pk, _, bs, h1, h2.2 shortMessage_good.2.2.2⟩

/-- C120, `Bytes`: a transaction with the long message, and the same without. -/
example : ∃ (t : Tx) (bs bs' : Bytes), IsMeta longMessage ⟨fun _ => .ok longBytes⟩ ∧ longMessage.Fits ∧ ¬ GoodAux longMessage ∧ BodyFits t.body ∧ WitnessFits t.witness ∧
    Transaction.bytes (goldenCrypto []) { t with metadata := none } 0 = .ok bs' ∧
    Transaction.bytes (goldenCrypto []) { t with metadata := some ⟨fun _ => .ok longBytes⟩ } 0 = .ok bs :=
  ⟨⟨⟨[], [], 0, 0, []⟩, [], true, none⟩, _, _, longBytes_ok, longMessage_bad.1, longMessage_bad.2.2.2, ⟨by simp, by simp, by simp, by simp, by simp⟩, ⟨by simp, by simp⟩, rfl, rfl⟩

end Cardano.Props
