import Verif.Tx.Model
/-!
# The key slices of several builders, with Go's slice semantics

`NewTxBuilder` keeps the slice it is given, `Sign` appends to it. `TxBuilder.Sign` in `Tx/Model.lean` treats the keys as a value;
this file models the backing arrays, to find out when that is right.
-/
set_option autoImplicit false

namespace Cardano.KeyMem

/-- A Go slice of keys starting at the beginning of its backing array: the array and the length. (The capacity is the
size of the array.) -/
structure Slice where
  arr : Nat
  len : Nat

/-- The backing arrays, and the `xprvs` field of each builder (builders are numbered). -/
structure Mem where
  arrays : List (List Bytes)
  xprvs : Nat → Slice

/-- Contents of an array. -/
def Mem.array (m : Mem) (i : Nat) : List Bytes := m.arrays.getD i []

/-- Contents of a slice. -/
def Mem.read (m : Mem) (s : Slice) : List Bytes := (m.array s.arr).take s.len

/-- The keys of builder `i`. -/
def Mem.keys (m : Mem) (i : Nat) : List Bytes := m.read (m.xprvs i)

/-- tx_builder.go:18-20 `Sign` on builder `i`: `append` writes into the backing array if there is room, otherwise it copies to a new
array; `spare` is the amount of extra room the runtime chooses then. -/
def Mem.sign (m : Mem) (spare i : Nat) (k : Bytes) : Mem :=
  let s := m.xprvs i
  if s.len < (m.array s.arr).length then
    { arrays := m.arrays.set s.arr ((m.array s.arr).set s.len k)
      xprvs := fun j => if j = i then ⟨s.arr, s.len + 1⟩ else m.xprvs j }
  else
    { arrays := m.arrays ++ [m.read s ++ k :: List.replicate spare []]
      xprvs := fun j => if j = i then ⟨m.arrays.length, s.len + 1⟩ else m.xprvs j }

/-- tx_builder.go:130-136 `NewTxBuilder` for every builder with the same slice of `n` keys, the first ones in the array `a`. -/
def shared (a : List Bytes) (n : Nat) : Mem := ⟨[a], fun _ => ⟨0, n⟩⟩

/-- A sequence of `Sign` calls: builder, key, extra room chosen by the runtime. -/
def Mem.run (m : Mem) (ops : List (Nat × Bytes × Nat)) : Mem := ops.foldl (fun m o => m.sign o.2.2 o.1 o.2.1) m

/-- Slices are inside their arrays; two builders on the same array only if both slices fill it. -/
structure Sep (m : Mem) : Prop where
  inb : ∀ i, (m.xprvs i).arr < m.arrays.length ∧ (m.xprvs i).len ≤ (m.array (m.xprvs i).arr).length
  sep : ∀ i j, i ≠ j → (m.xprvs i).arr = (m.xprvs j).arr → (m.xprvs i).len = (m.array (m.xprvs i).arr).length

theorem array_append (m : Mem) (a : List Bytes) (f : Nat → Slice) (i : Nat) (h : i < m.arrays.length) :
    (Mem.mk (m.arrays ++ [a]) f).array i = m.array i := by
  simp [Mem.array, List.getElem?_append_left h]

theorem array_last (m : Mem) (a : List Bytes) (f : Nat → Slice) : (Mem.mk (m.arrays ++ [a]) f).array m.arrays.length = a := by
  simp [Mem.array]

theorem array_set (m : Mem) (a : List Bytes) (f : Nat → Slice) (i j : Nat) (h : i < m.arrays.length) :
    (Mem.mk (m.arrays.set i a) f).array j = if i = j then a else m.array j := by
  simp only [Mem.array, List.getD_eq_getElem?_getD, List.getElem?_set]
  split
  · rename_i e; subst e; simp
  · rfl

theorem take_set_snoc {α : Type} (l : List α) (n : Nat) (x : α) (h : n < l.length) : (l.set n x).take (n + 1) = l.take n ++ [x] := by
  rw [List.take_add_one, List.take_set_of_le (Nat.le_refl n)]
  simp [h]

theorem sign_sep (m : Mem) (h : Sep m) (spare i : Nat) (k : Bytes) :
    Sep (m.sign spare i k) ∧ ∀ j, (m.sign spare i k).keys j = m.keys j ++ (if j = i then [k] else []) := by
  obtain ⟨hi1, hi2⟩ := h.inb i
  unfold Mem.sign
  by_cases c : (m.xprvs i).len < (m.array (m.xprvs i).arr).length
  · simp only [c, if_true]
    have hother : ∀ j, j ≠ i → (m.xprvs i).arr ≠ (m.xprvs j).arr := by
      intro j hj e
      have := h.sep i j (Ne.symm hj) e
      omega
    refine ⟨⟨fun j => ?_, fun j l hjl => ?_⟩, fun j => ?_⟩
    · obtain ⟨hj1, hj2⟩ := h.inb j
      by_cases e : j = i
      · subst e
        simp only [if_true, List.length_set, array_set m _ _ _ _ hi1]
        exact ⟨hj1, c⟩
      · simp only [e, if_false, List.length_set, array_set m _ _ _ _ hi1, hother j e]
        exact ⟨hj1, hj2⟩
    · by_cases e : j = i
      · subst e
        simp only [if_true, Ne.symm hjl, if_false]
        intro e'
        exact absurd e' (hother l (Ne.symm hjl))
      · by_cases e2 : l = i
        · subst e2
          simp only [if_true, e, if_false]
          intro e'
          exact absurd e'.symm (hother j e)
        · simp only [e, e2, if_false, array_set m _ _ _ _ hi1, hother j e]
          exact h.sep j l hjl
    · by_cases e : j = i
      · subst e
        simp only [Mem.keys, Mem.read, if_true, array_set m _ _ _ _ hi1]
        exact take_set_snoc _ _ _ c
      · simp only [Mem.keys, Mem.read, e, if_false, array_set m _ _ _ _ hi1, hother j e, List.append_nil]
  · simp only [c, if_false]
    have hlen : (m.read (m.xprvs i)).length = (m.xprvs i).len := by simp [Mem.read]; omega
    refine ⟨⟨fun j => ?_, fun j l hjl => ?_⟩, fun j => ?_⟩
    · obtain ⟨hj1, hj2⟩ := h.inb j
      by_cases e : j = i
      · subst e
        simp only [if_true, array_last, List.length_append, List.length_cons, List.length_nil, hlen]
        omega
      · simp only [e, if_false, List.length_append, List.length_cons, List.length_nil, array_append m _ _ _ hj1]
        omega
    · obtain ⟨hj1, _⟩ := h.inb j
      obtain ⟨hl1, _⟩ := h.inb l
      by_cases e : j = i
      · subst e
        simp only [if_true, Ne.symm hjl, if_false]
        intro e'; omega
      · by_cases e2 : l = i
        · subst e2
          simp only [if_true, e, if_false]
          intro e'; omega
        · simp only [e, e2, if_false, array_append m _ _ _ hj1]
          exact h.sep j l hjl
    · obtain ⟨hj1, _⟩ := h.inb j
      by_cases e : j = i
      · subst e
        have hlen' : (m.keys j).length = (m.xprvs j).len := hlen
        simp only [Mem.keys, if_true]
        rw [Mem.read, array_last]
        rw [show m.read (m.xprvs j) = m.keys j from rfl]
        show List.take ((m.xprvs j).len + 1) _ = _
        rw [List.take_append, hlen', List.take_of_length_le (by omega)]
        simp
      · simp only [Mem.keys, Mem.read, e, if_false, array_append m _ _ _ hj1, List.append_nil]

end Cardano.KeyMem
