import Verif.Go.Basic
/-!
# Byte slices in memory

Go's slices: a slice is a window into a backing array, with a length and a capacity. Nothing here models a file of `/repo`.
-/
set_option autoImplicit false

namespace Cardano.Go

/-- The backing arrays that have been allocated. -/
abbrev Mem := List Bytes

/-- A slice: array, position of its first element, length, capacity. -/
structure Slice where
  arr : Nat
  off : Nat
  len : Nat
  cap : Nat
  deriving DecidableEq

namespace Mem

/-- An array. -/
def array (m : Mem) (i : Nat) : Bytes := m.getD i []

/-- The elements of a slice. -/
def read (m : Mem) (s : Slice) : Bytes := ((m.array s.arr).drop s.off).take s.len

/-- The elements between the beginning of a slice and its capacity. -/
def room (m : Mem) (s : Slice) : Bytes := ((m.array s.arr).drop s.off).take s.cap

/-- `a[p:p+len(b)] = b` on an array. -/
def splice (a : Bytes) (p : Nat) (b : Bytes) : Bytes := a.take p ++ b ++ a.drop (p + b.length)

/-- Write `b` at position `p` of an array. -/
def write (m : Mem) (i p : Nat) (b : Bytes) : Mem := m.set i (splice (m.array i) p b)

/-- `s[i] = f(s[i])`; panics outside the length. -/
def modifyAt (m : Mem) (s : Slice) (i : Nat) (f : UInt8 → UInt8) : Res Mem :=
  if i < s.len then .ok (m.set s.arr ((m.array s.arr).modify (s.off + i) f)) else .panic

/-- `make([]byte, len(b), len(b)+len(rest))` with the given contents. -/
def alloc (m : Mem) (b rest : Bytes) : Slice × Mem := (⟨m.length, 0, b.length, b.length + rest.length⟩, m ++ [b ++ rest])

/-- `append(s, b...)`: in place if the capacity suffices, otherwise into a new array, in which the run-time leaves some room. -/
def append (m : Mem) (s : Slice) (b : Bytes) (spare : Nat) : Slice × Mem :=
  if s.len + b.length ≤ s.cap then (⟨s.arr, s.off, s.len + b.length, s.cap⟩, m.write s.arr (s.off + s.len) b)
  else m.alloc (m.read s ++ b) (List.replicate spare 0)

end Mem

/-- `s[lo:hi]`: the upper limit is the capacity, not the length. -/
def Slice.sub (s : Slice) (lo hi : Nat) : Res Slice :=
  if lo ≤ hi ∧ hi ≤ s.cap then .ok ⟨s.arr, s.off + lo, hi - lo, s.cap - lo⟩ else .panic

/-- Slices as Go makes them. -/
structure Slice.Wf (m : Mem) (s : Slice) : Prop where
  arr : s.arr < m.length
  cap : s.off + s.cap ≤ (m.array s.arr).length
  len : s.len ≤ s.cap

namespace Mem

theorem array_append (m n : Mem) (i : Nat) (h : i < m.length) : (array (m ++ n) i) = m.array i := by
  simp [array, List.getElem?_append_left h]

theorem array_last (m : Mem) (a : Bytes) : array (m ++ [a]) m.length = a := by
  simp [array]

theorem array_set (m : Mem) (i j : Nat) (a : Bytes) (h : i < m.length) : array (m.set i a) j = if i = j then a else m.array j := by
  simp only [array, List.getD, List.getElem?_set]
  by_cases e : i = j
  · subst e; simp [h]
  · simp [e]

theorem read_length (m : Mem) (s : Slice) (h : s.Wf m) : (m.read s).length = s.len := by
  have h1 := h.cap
  have h2 := h.len
  simp only [read, List.length_take, List.length_drop]
  omega

theorem room_length (m : Mem) (s : Slice) (h : s.Wf m) : (m.room s).length = s.cap := by
  have h1 := h.cap
  simp only [room, List.length_take, List.length_drop]
  omega

theorem read_room (m : Mem) (s : Slice) (h : s.Wf m) : m.read s = (m.room s).take s.len := by
  simp only [read, room, List.take_take, Nat.min_eq_left h.len]

/-- What a slice expression reads. -/
theorem read_sub (m : Mem) (s t : Slice) (lo hi : Nat) (e : s.sub lo hi = .ok t) : m.read t = ((m.room s).take hi).drop lo := by
  unfold Slice.sub at e
  split at e
  · rename_i c
    injection e with e
    subst e
    simp only [read, room, List.take_take, Nat.min_eq_left c.2, ← List.drop_drop, List.drop_take]
  · cases e

theorem sub_ok (s : Slice) (lo hi : Nat) (h : lo ≤ hi) (h2 : hi ≤ s.cap) : s.sub lo hi = .ok ⟨s.arr, s.off + lo, hi - lo, s.cap - lo⟩ :=
  if_pos ⟨h, h2⟩

theorem sub_wf (m : Mem) (s t : Slice) (lo hi : Nat) (h : s.Wf m) (e : s.sub lo hi = .ok t) : t.Wf m := by
  unfold Slice.sub at e
  split at e
  · rename_i c
    injection e with e
    subst e
    have h1 := h.cap
    exact ⟨h.arr, by show s.off + lo + (s.cap - lo) ≤ (m.array s.arr).length; omega, by show hi - lo ≤ s.cap - lo; omega⟩
  · cases e

/-- Memory only grew: the slices that existed read the same. -/
theorem read_grow (m n : Mem) (s : Slice) (h : s.arr < m.length) : read (m ++ n) s = m.read s := by
  simp only [read, array_append m n _ h]

theorem alloc_read (m : Mem) (b rest : Bytes) : (m.alloc b rest).2.read (m.alloc b rest).1 = b := by
  simp only [alloc, read, array_last, List.drop_zero, List.take_left]

theorem alloc_wf (m : Mem) (b rest : Bytes) : (m.alloc b rest).1.Wf (m.alloc b rest).2 := by
  refine ⟨by simp [alloc], ?_, by simp [alloc]⟩
  simp only [alloc, array_last, List.length_append]
  omega

theorem splice_length (a b : Bytes) (p : Nat) (h : p + b.length ≤ a.length) : (splice a p b).length = a.length := by
  simp only [splice, List.length_append, List.length_take, List.length_drop]
  omega

/-- Writing to one array does not change what a slice of another array reads. -/
theorem read_set_other (m : Mem) (i : Nat) (a : Bytes) (s : Slice) (h : s.arr ≠ i) : read (m.set i a) s = m.read s := by
  have : array (m.set i a) s.arr = m.array s.arr := by
    simp only [array, List.getD, List.getElem?_set]
    rw [if_neg (fun h' => h h'.symm)]
  simp only [read, this]

/-- Reading after `append` in place. -/
theorem splice_read (a b : Bytes) (off len : Nat) (h : off + len + b.length ≤ a.length) :
    ((splice a (off + len) b).drop off).take (len + b.length) = (a.drop off).take len ++ b := by
  have e : a.take (off + len) = a.take off ++ (a.drop off).take len := by rw [List.take_add]
  have hl : (a.take off).length = off := by rw [List.length_take]; omega
  have hl2 : ((a.drop off).take len ++ b).length = len + b.length := by
    rw [List.length_append, List.length_take, List.length_drop]; omega
  unfold splice
  rw [e, List.append_assoc, List.append_assoc, List.drop_append_of_le_length (by omega), List.drop_of_length_le (by omega), List.nil_append, ← List.append_assoc,
    List.take_append_of_le_length (by omega), List.take_of_length_le (by omega)]

theorem set_append_right' (m n : Mem) (i : Nat) (a : Bytes) (h : m.length ≤ i) : List.set (m ++ n) i a = m ++ List.set n (i - m.length) a :=
  List.set_append_right _ _ h

end Mem

/-- The slice `s` of memory `m'` lies in an array that was not there in `m`, and nothing that was there has changed. -/
structure Fresh (m m' : Mem) (s : Slice) : Prop where
  grow : ∃ new, m' = m ++ new
  new : m.length ≤ s.arr
  wf : s.Wf m'

namespace Fresh

theorem alloc (m : Mem) (b rest : Bytes) : Fresh m (m.alloc b rest).2 (m.alloc b rest).1 :=
  ⟨⟨_, rfl⟩, Nat.le_refl _, Mem.alloc_wf _ _ _⟩

theorem trans (m0 m m' : Mem) (s : Slice) (h0 : ∃ new, m = m0 ++ new) (h : Fresh m m' s) : Fresh m0 m' s := by
  obtain ⟨n1, rfl⟩ := h0
  obtain ⟨⟨n2, e⟩, h2, h3⟩ := h
  rw [List.length_append] at h2
  exact ⟨⟨n1 ++ n2, by rw [e, List.append_assoc]⟩, by omega, h3⟩

/-- Setting the array of a fresh slice. -/
theorem set (m m' : Mem) (s : Slice) (a : Bytes) (h : Fresh m m' s) : ∃ new, m'.set s.arr a = m ++ new := by
  obtain ⟨⟨n, rfl⟩, h2, h3⟩ := h
  exact ⟨_, Mem.set_append_right' m n s.arr a h2⟩

theorem append (m m' : Mem) (s : Slice) (b : Bytes) (g : Nat) (h : Fresh m m' s) :
    Fresh m (m'.append s b g).2 (m'.append s b g).1 ∧ (m'.append s b g).2.read (m'.append s b g).1 = m'.read s ++ b := by
  unfold Mem.append
  split
  · rename_i c
    have h1 := h.wf.arr
    have h2 := h.wf.cap
    have ha : Mem.array (Mem.write m' s.arr (s.off + s.len) b) s.arr = Mem.splice (m'.array s.arr) (s.off + s.len) b := by
      unfold Mem.write
      rw [Mem.array_set _ _ _ _ h1, if_pos rfl]
    refine ⟨⟨set _ _ _ _ h, h.new, ⟨?_, ?_, c⟩⟩, ?_⟩
    · show s.arr < (m'.set s.arr _).length
      rw [List.length_set]; exact h1
    · dsimp only
      rw [ha, Mem.splice_length _ _ _ (by omega)]; exact h2
    · show ((Mem.array (Mem.write m' s.arr (s.off + s.len) b) s.arr).drop s.off).take (s.len + b.length) = _
      rw [ha, Mem.splice_read _ _ _ _ (by omega)]
      rfl
  · refine ⟨?_, Mem.alloc_read _ _ _⟩
    exact trans m m' _ _ h.grow (alloc m' _ _)

theorem modifyAt (m m' m'' : Mem) (s : Slice) (i : Nat) (f : UInt8 → UInt8) (h : Fresh m m' s) (e : m'.modifyAt s i f = .ok m'') :
    Fresh m m'' s ∧ m''.read s = (m'.read s).modify i f := by
  unfold Mem.modifyAt at e
  split at e
  · rename_i c
    injection e with e
    subst e
    have h1 := h.wf.arr
    have h2 := h.wf.cap
    have h3 := h.wf.len
    have ha := Mem.array_set m' s.arr s.arr ((m'.array s.arr).modify (s.off + i) f) h1
    rw [if_pos rfl] at ha
    refine ⟨⟨set _ _ _ _ h, h.new, ⟨?_, ?_, h3⟩⟩, ?_⟩
    · rw [List.length_set]; exact h1
    · rw [ha, List.length_modify]; exact h2
    · unfold Mem.read
      rw [ha]
      apply List.ext_getElem?
      intro k
      simp only [List.getElem?_take, List.getElem?_drop, List.getElem?_modify]
      by_cases hk : k < s.len
      · simp only [hk, if_true]
        by_cases hi : i = k
        · subst hi; simp
        · simp [hi]
      · simp [hk]
  · cases e

end Fresh
end Cardano.Go
