import Verif.Address.Objects
import Verif.Props.Address
/-!
# Property C112: addresses, credentials and networks as objects

Which assignments of a program change an address, and which do not.
-/
set_option autoImplicit false

namespace Cardano.Props
open Cardano.Addr Cardano.Addr.Obj Go

/-! ### Specification -/

/-- The slices of an address. -/
def hashSlices : AddrO → List Slice
  | .base _ p s => [p.payload, s.payload]
  | .enterprise _ p => [p.payload]
  | .pointer _ p _ => [p.payload]
  | .reward _ s => [s.payload]
  | .byron _ => []

/-- Byte `i` of slice `s` lies in slice `t`. -/
def ByteIn (s : Slice) (i : Nat) (t : Slice) : Prop := s.arr = t.arr ∧ t.off ≤ s.off + i ∧ s.off + i < t.off + t.len

/-- The action assigns to a field of address `a` (itself, or through the pointer that `NetworkInfo()` gives), or to a byte of one of its hashes `ts`. -/
def Assigns (a : Nat) (ts : List Slice) : Act → Prop
  | .setByte s i _ => ∃ t ∈ ts, ByteIn s i t
  | .setNet (.field a') _ | .setCred (.payment a') _ | .setCred (.stake a') _ | .setPointer a' _ | .setByron a' _ => a' = a
  | _ => False

/-- The slices that the action mentions exist. -/
def SlicesExist (m : Go.Mem) : Act → Prop
  | .keyCred s | .scriptCred s | .parse _ s | .setByte s _ _ => s.Wf m
  | .setCred _ c => c.payload.Wf m
  | _ => True

/-- All slices of the objects exist. -/
structure HeapOk (h : Heap) : Prop where
  creds : ∀ c ∈ h.creds, c.payload.arr < h.arrays.length
  addrs : ∀ x ∈ h.addrs, ∀ t ∈ hashSlices x, t.arr < h.arrays.length

/-- Each action mentions slices that exist when it is done. -/
def RunOk : Heap → List Act → Prop
  | _, [] => True
  | h, x :: l => SlicesExist h.arrays x ∧ RunOk (step h x) l

/-! ### Proof -/

theorem step_arrays (h : Heap) (x : Act) : h.arrays.length ≤ (step h x).arrays.length := by
  cases x with
  | make b => simp [step]
  | newBase n p s => simp only [step, Heap.push]; split <;> exact Nat.le_refl _
  | newEnterprise n p => simp only [step, Heap.push]; split <;> exact Nat.le_refl _
  | newReward n p => simp only [step, Heap.push]; split <;> exact Nat.le_refl _
  | newPointer n p s => simp only [step, Heap.push]; split <;> exact Nat.le_refl _
  | toEnterprise a => simp only [step, Heap.push]; split <;> exact Nat.le_refl _
  | toReward a => simp only [step, Heap.push]; split <;> exact Nat.le_refl _
  | parse b s => simp only [step, Heap.push]; split <;> exact Nat.le_refl _
  | bytes a => simp only [step]; split <;> simp
  | networkInfo a => simp only [step]; split <;> exact Nat.le_refl _
  | setByte s i v =>
    simp only [step, Mem.modifyAt]
    by_cases c : i < s.len
    · rw [if_pos c]; simp
    · rw [if_neg c]; exact Nat.le_refl _
  | setNet p n => cases p <;> exact Nat.le_refl _
  | setCred p n => cases p <;> exact Nat.le_refl _
  | _ => exact Nat.le_refl _

/-- Reading a slice after an assignment to a byte outside it. -/
theorem read_modify_other (m m' : Go.Mem) (s t : Slice) (i : Nat) (v : UInt8) (h : m.modifyAt s i (fun _ => v) = .ok m') (hn : ¬ ByteIn s i t) :
    m'.read t = m.read t := by
  unfold Mem.modifyAt at h
  split at h
  · injection h with h
    subst h
    by_cases c : s.arr = t.arr
    · by_cases c2 : s.arr < m.length
      · unfold Go.Mem.read
        rw [Mem.array_set _ _ _ _ c2, if_pos c, c]
        apply List.ext_getElem?
        intro k
        simp only [List.getElem?_take, List.getElem?_drop, List.getElem?_modify]
        by_cases hk : k < t.len
        · have hne : s.off + i ≠ t.off + k := fun e => hn ⟨c, by omega, by omega⟩
          simp [hne]
        · rw [if_neg hk, if_neg hk]
      · rw [List.set_eq_of_length_le (by omega)]
    · exact Mem.read_set_other _ _ _ _ (fun e => c e.symm)
  · cases h

theorem value_congr (x : AddrO) (m m' : Go.Mem) (h : ∀ t ∈ hashSlices x, m'.read t = m.read t) : x.value m' = x.value m := by
  cases x with
  | base n p s => simp only [AddrO.value, CredO.value, h p.payload (by simp [hashSlices]), h s.payload (by simp [hashSlices])]
  | enterprise n p => simp only [AddrO.value, CredO.value, h p.payload (by simp [hashSlices])]
  | pointer n p s => simp only [AddrO.value, CredO.value, h p.payload (by simp [hashSlices])]
  | reward n s => simp only [AddrO.value, CredO.value, h s.payload (by simp [hashSlices])]
  | byron b => rfl

theorem getElem_push (l : List AddrO) (x : AddrO) (a : Nat) (h : a < l.length) : (l ++ [x])[a]? = l[a]? := List.getElem?_append_left h

/-- One action that does not assign to the address. -/
theorem step_unchanged (h : Heap) (x : Act) (a : Nat) (o : AddrO) (ha : h.addrs[a]? = some o) (hs : ∀ t ∈ hashSlices o, t.arr < h.arrays.length)
    (hn : ¬ Assigns a (hashSlices o) x) : (step h x).addrs[a]? = some o ∧ ∀ t ∈ hashSlices o, (step h x).arrays.read t = h.arrays.read t := by
  have hl : a < h.addrs.length := (List.getElem?_eq_some_iff.1 ha).1
  have push : ∀ y : Option AddrO, (h.push y).addrs[a]? = some o ∧ ∀ t ∈ hashSlices o, (h.push y).arrays.read t = h.arrays.read t := fun y => by
    cases y with
    | none => exact ⟨ha, fun _ _ => rfl⟩
    | some y => exact ⟨(getElem_push _ _ _ hl).trans ha, fun _ _ => rfl⟩
  have modi : ∀ (a' : Nat) (f : AddrO → AddrO), a' ≠ a → (h.addrs.modify a' f)[a]? = some o := fun a' f hne => by
    simp [hne, ha]
  cases x with
  | make b => exact ⟨ha, fun t ht => Mem.read_grow _ _ _ (hs t ht)⟩
  | newBase n p s => exact push _
  | newEnterprise n p => exact push _
  | newReward n p => exact push _
  | newPointer n p s => exact push _
  | toEnterprise a' =>
    simp only [step]
    split
    · exact push _
    · exact ⟨ha, fun _ _ => rfl⟩
  | toReward a' =>
    simp only [step]
    split
    · exact push _
    · exact ⟨ha, fun _ _ => rfl⟩
  | parse b s =>
    simp only [step]
    split
    · exact push _
    · exact ⟨ha, fun _ _ => rfl⟩
  | bytes a' =>
    simp only [step]
    split
    · exact ⟨ha, fun t ht => Mem.read_grow _ _ _ (hs t ht)⟩
    · exact ⟨ha, fun _ _ => rfl⟩
  | networkInfo a' =>
    simp only [step]
    split <;> exact ⟨ha, fun _ _ => rfl⟩
  | setByte s i v =>
    simp only [step]
    cases e : h.arrays.modifyAt s i fun _ => v with
    | ok m => exact ⟨ha, fun t ht => read_modify_other _ _ _ _ _ _ e fun hb => hn ⟨t, ht, hb⟩⟩
    | err e => exact ⟨ha, fun _ _ => rfl⟩
    | panic => exact ⟨ha, fun _ _ => rfl⟩
  | setNet p n =>
    cases p with
    | var i => exact ⟨ha, fun _ _ => rfl⟩
    | field a' => exact ⟨modi _ _ hn, fun _ _ => rfl⟩
  | setCred p c =>
    cases p with
    | var i => exact ⟨ha, fun _ _ => rfl⟩
    | payment a' => exact ⟨modi _ _ hn, fun _ _ => rfl⟩
    | stake a' => exact ⟨modi _ _ hn, fun _ _ => rfl⟩
  | setPointer a' s => exact ⟨modi _ _ hn, fun _ _ => rfl⟩
  | setByron a' b => exact ⟨modi _ _ hn, fun _ _ => rfl⟩
  | network n => exact ⟨ha, fun _ _ => rfl⟩
  | testNet => exact ⟨ha, fun _ _ => rfl⟩
  | mainNet => exact ⟨ha, fun _ _ => rfl⟩
  | keyCred s => exact ⟨ha, fun _ _ => rfl⟩
  | scriptCred s => exact ⟨ha, fun _ _ => rfl⟩
  | string a => exact ⟨ha, fun _ _ => rfl⟩
  | pfx a => exact ⟨ha, fun _ _ => rfl⟩

/-- **C112** (what changes an address). Whatever a program does with the package — making, converting, parsing and printing addresses, with or without pointers into this
one — and whatever it assigns elsewhere, an address stays the same unless the program assigns to a field of the address or to a byte of its hashes. -/
theorem C112_unchanged (h : Heap) (hh : HeapOk h) (l : List Act) (a : Nat) (o : AddrO) (ha : h.addrs[a]? = some o) (hn : ∀ x ∈ l, ¬ Assigns a (hashSlices o) x) :
    (run h l).address a = h.address a := by
  have hs : ∀ t ∈ hashSlices o, t.arr < h.arrays.length := hh.addrs o (List.mem_of_getElem? ha)
  clear hh
  have key : (run h l).addrs[a]? = some o ∧ ∀ t ∈ hashSlices o, (run h l).arrays.read t = h.arrays.read t := by
    induction l generalizing h with
    | nil => exact ⟨ha, fun _ _ => rfl⟩
    | cons x l ih =>
      obtain ⟨h1, h2⟩ := step_unchanged h x a o ha hs (hn x List.mem_cons_self)
      obtain ⟨h3, h4⟩ := ih (step h x) h1 (fun y hy => hn y (List.mem_cons_of_mem _ hy)) (fun t ht => Nat.lt_of_lt_of_le (hs t ht) (step_arrays h x))
      exact ⟨h3, fun t ht => (h4 t ht).trans (h2 t ht)⟩
  unfold Heap.address
  rw [key.1, ha, Option.map_some, Option.map_some, value_congr o _ _ key.2]

theorem slotOf_arr (s : Slice) (p : Addr.Mem) : (slotOf s p).arr = s.arr := by cases p <;> rfl

theorem hashSlices_placed (s : Slice) (x : AddressM) : ∀ t ∈ hashSlices (placed s x), t.arr = s.arr := by
  cases x <;> simp [placed, hashSlices, slotOf_arr]

theorem netAt_credAt_ok {h : Heap} (hh : HeapOk h) {p : CredPtr} {c : CredO} (e : h.credAt p = some c) : c.payload.arr < h.arrays.length := by
  cases p with
  | var i => exact hh.creds c (List.mem_of_getElem? e)
  | payment a =>
    simp only [Heap.credAt, Option.bind_eq_some_iff] at e
    obtain ⟨x, hx, e⟩ := e
    refine hh.addrs x (List.mem_of_getElem? hx) _ ?_
    cases x <;> simp_all [AddrO.payment, hashSlices]
  | stake a =>
    simp only [Heap.credAt, Option.bind_eq_some_iff] at e
    obtain ⟨x, hx, e⟩ := e
    refine hh.addrs x (List.mem_of_getElem? hx) _ ?_
    cases x <;> simp_all [AddrO.stake, hashSlices]

theorem push_ok {h : Heap} (hh : HeapOk h) (y : Option AddrO) (hy : ∀ x, y = some x → ∀ t ∈ hashSlices x, t.arr < h.arrays.length) : HeapOk (h.push y) := by
  cases y with
  | none => exact hh
  | some y =>
    refine ⟨hh.creds, fun x hx => ?_⟩
    rcases List.mem_append.1 hx with hx | hx
    · exact hh.addrs x hx
    · obtain rfl := List.mem_singleton.1 hx
      exact hy _ rfl

theorem modify_ok {h : Heap} (hh : HeapOk h) (a : Nat) (f : AddrO → AddrO) (hf : ∀ x ∈ h.addrs, ∀ t ∈ hashSlices (f x), t.arr < h.arrays.length) :
    HeapOk { h with addrs := h.addrs.modify a f } := by
  refine ⟨hh.creds, fun x hx => ?_⟩
  obtain ⟨i, hi⟩ := List.mem_iff_getElem?.1 hx
  simp only [List.getElem?_modify, Option.map_eq_map, Option.map_eq_some_iff] at hi
  obtain ⟨y, hy, e⟩ := hi
  have hy := List.mem_of_getElem? hy
  subst e
  split
  · exact hf y hy
  · exact hh.addrs y hy

theorem step_ok (h : Heap) (x : Act) (hh : HeapOk h) (hx : SlicesExist h.arrays x) : HeapOk (step h x) := by
  cases x with
  | make b => exact ⟨fun c hc => by simp only [step, List.length_append]; have := hh.creds c hc; omega, fun x hx t ht => by
      simp only [step, List.length_append]; have := hh.addrs x hx t ht; omega⟩
  | keyCred s =>
    refine ⟨fun c hc => ?_, hh.addrs⟩
    rcases List.mem_append.1 hc with hc | hc
    · exact hh.creds c hc
    · obtain rfl := List.mem_singleton.1 hc; exact hx.arr
  | scriptCred s =>
    refine ⟨fun c hc => ?_, hh.addrs⟩
    rcases List.mem_append.1 hc with hc | hc
    · exact hh.creds c hc
    · obtain rfl := List.mem_singleton.1 hc; exact hx.arr
  | newBase n p s =>
    refine push_ok hh _ fun x e => ?_
    simp only [Option.bind_eq_bind, Option.bind_eq_some_iff, Option.pure_def, Option.some.injEq] at e
    obtain ⟨n', -, p', hp, s', hs, rfl⟩ := e
    intro t ht
    simp only [hashSlices, List.mem_cons, List.not_mem_nil, or_false] at ht
    rcases ht with rfl | rfl
    · exact netAt_credAt_ok hh hp
    · exact netAt_credAt_ok hh hs
  | newEnterprise n p =>
    refine push_ok hh _ fun x e => ?_
    simp only [Option.bind_eq_bind, Option.bind_eq_some_iff, Option.pure_def, Option.some.injEq] at e
    obtain ⟨n', -, p', hp, rfl⟩ := e
    intro t ht
    simp only [hashSlices, List.mem_cons, List.not_mem_nil, or_false] at ht
    subst ht
    exact netAt_credAt_ok hh hp
  | newReward n p =>
    refine push_ok hh _ fun x e => ?_
    simp only [Option.bind_eq_bind, Option.bind_eq_some_iff, Option.pure_def, Option.some.injEq] at e
    obtain ⟨n', -, p', hp, rfl⟩ := e
    intro t ht
    simp only [hashSlices, List.mem_cons, List.not_mem_nil, or_false] at ht
    subst ht
    exact netAt_credAt_ok hh hp
  | newPointer n p s =>
    refine push_ok hh _ fun x e => ?_
    simp only [Option.bind_eq_bind, Option.bind_eq_some_iff, Option.pure_def, Option.some.injEq] at e
    obtain ⟨n', -, p', hp, rfl⟩ := e
    intro t ht
    simp only [hashSlices, List.mem_cons, List.not_mem_nil, or_false] at ht
    subst ht
    exact netAt_credAt_ok hh hp
  | toEnterprise a =>
    simp only [step]
    split
    · rename_i n p s e
      refine push_ok hh _ fun x ex t ht => hh.addrs _ (List.mem_of_getElem? e) t ?_
      injection ex with ex
      subst ex
      simp only [hashSlices, List.mem_cons, List.not_mem_nil, or_false] at ht ⊢
      exact .inl ht
    · exact hh
  | toReward a =>
    simp only [step]
    split
    · rename_i n p s e
      refine push_ok hh _ fun x ex t ht => hh.addrs _ (List.mem_of_getElem? e) t ?_
      injection ex with ex
      subst ex
      simp only [hashSlices, List.mem_cons, List.not_mem_nil, or_false] at ht ⊢
      exact .inr ht
    · exact hh
  | parse b s =>
    simp only [step]
    split
    · refine push_ok hh _ fun x ex t ht => ?_
      injection ex with ex
      subst ex
      rw [hashSlices_placed _ _ t ht]
      exact hx.arr
    · exact hh
  | bytes a =>
    simp only [step]
    split
    · exact ⟨fun c hc => by simp only [List.length_append]; have := hh.creds c hc; omega, fun x hx t ht => by
        simp only [List.length_append]; have := hh.addrs x hx t ht; omega⟩
    · exact hh
  | networkInfo a => simp only [step]; split <;> exact ⟨hh.creds, hh.addrs⟩
  | setByte s i v =>
    simp only [step, Mem.modifyAt]
    by_cases c : i < s.len
    · rw [if_pos c]
      exact ⟨fun c hc => by simp only [List.length_set]; exact hh.creds c hc, fun x hx t ht => by simp only [List.length_set]; exact hh.addrs x hx t ht⟩
    · rw [if_neg c]; exact hh
  | setNet p n =>
    cases p with
    | var i => exact ⟨hh.creds, hh.addrs⟩
    | field a => exact modify_ok hh _ _ fun x hx t ht => hh.addrs x hx t (by cases x <;> exact ht)
  | setCred p c =>
    have hc : c.payload.arr < h.arrays.length := hx.arr
    cases p with
    | var i =>
      refine ⟨fun c' hc' => ?_, hh.addrs⟩
      rcases List.mem_or_eq_of_mem_set hc' with hm | rfl
      · exact hh.creds _ hm
      · exact hc
    | payment a =>
      refine modify_ok hh _ _ fun x hx t ht => ?_
      have := hh.addrs x hx t
      cases x <;> simp only [AddrO.setPayment, hashSlices, List.mem_cons, List.not_mem_nil, or_false] at ht this
      · rcases ht with rfl | rfl
        · exact hc
        · exact this (.inr rfl)
      all_goals first | (subst ht; exact hc) | exact this ht
    | stake a =>
      refine modify_ok hh _ _ fun x hx t ht => ?_
      have := hh.addrs x hx t
      cases x <;> simp only [AddrO.setStake, hashSlices, List.mem_cons, List.not_mem_nil, or_false] at ht this
      · rcases ht with rfl | rfl
        · exact this (.inl rfl)
        · exact hc
      all_goals first | exact this ht | (subst ht; exact hc)
  | setPointer a s => exact modify_ok hh _ _ fun x hx t ht => hh.addrs x hx t (by cases x <;> exact ht)
  | setByron a b => exact modify_ok hh _ _ fun x hx t ht => hh.addrs x hx t (by cases x <;> exact ht)
  | network n => exact ⟨hh.creds, hh.addrs⟩
  | testNet => exact ⟨hh.creds, hh.addrs⟩
  | mainNet => exact ⟨hh.creds, hh.addrs⟩
  | string a => exact hh
  | pfx a => exact hh

/-- The empty process, and all that come after it, satisfy the hypothesis of `C112_unchanged`. -/
theorem C112_reachable (l : List Act) (hl : RunOk ⟨[], [], [], []⟩ l) : HeapOk (run ⟨[], [], [], []⟩ l) := by
  suffices this : ∀ (l : List Act) (h : Heap), HeapOk h → RunOk h l → HeapOk (run h l) from this l _ ⟨by simp, by simp⟩ hl
  intro l
  induction l with
  | nil => exact fun h hh _ => hh
  | cons x l ih => exact fun h hh hl => ih (step h x) (step_ok h x hh hl.1) hl.2

/-- The parts of a new address, or nothing. -/
theorem push_new (h : Heap) (x : AddrO) : (h.push (some x)).addrs[h.addrs.length]? = some x ∧ (h.push (some x)).arrays = h.arrays :=
  ⟨List.getElem?_concat_length .., rfl⟩

/-- **C112** (constructors and conversions). A constructor makes an address of the network and the credentials that its pointers point to at that moment. -/
theorem C112_made (h : Heap) (n : NetPtr) (p q : CredPtr) (net : NetworkInfo) (c d : CredO) (sp : StakePointer) (hn : h.netAt n = some net) (hp : h.credAt p = some c)
    (hq : h.credAt q = some d) :
    (step h (.newBase n p q)).address h.addrs.length = some (NewBaseAddress net (c.value h.arrays) (d.value h.arrays)) ∧
    (step h (.newEnterprise n p)).address h.addrs.length = some (NewEnterpriseAddress net (c.value h.arrays)) ∧
    (step h (.newReward n q)).address h.addrs.length = some (NewRewardAddress net (d.value h.arrays)) ∧
    (step h (.newPointer n p sp)).address h.addrs.length = some (.pointer net (c.value h.arrays) sp) := by
  simp only [step, hn, hp, hq, Option.bind_eq_bind, Option.bind_some, Option.pure_def, Heap.address, (push_new h _).1, (push_new h _).2, Option.map_some]
  exact ⟨rfl, rfl, rfl, rfl⟩

/-- **C112** (conversions). -/
theorem C112_converted (h : Heap) (a : Nat) (net : NetworkInfo) (c d : Cred) (ha : h.address a = some (.base net c d)) :
    (step h (.toEnterprise a)).address h.addrs.length = some (.enterprise net c) ∧ (step h (.toReward a)).address h.addrs.length = some (.reward net d) := by
  unfold Heap.address at ha
  rw [Option.map_eq_some_iff] at ha
  obtain ⟨x, hx, e⟩ := ha
  cases x with
  | base n p s =>
    simp only [AddrO.value, Address.base.injEq] at e
    obtain ⟨rfl, rfl, rfl⟩ := e
    simp only [step, hx, Heap.address, (push_new h _).1, (push_new h _).2, Option.map_some]
    exact ⟨rfl, rfl⟩
  | _ => simp [AddrO.value] at e

theorem room_split (m : Go.Mem) (s : Slice) (hs : s.len ≤ s.cap) : m.read s ++ (m.room s).drop s.len = m.room s := by
  have : m.read s = (m.room s).take s.len := by simp only [Go.Mem.read, Go.Mem.room, List.take_take, Nat.min_eq_left hs]
  rw [this, List.take_append_drop]

/-- A credential found in `n` bytes. -/
def WithinArrays (n : Nat) (c : CredM) : Prop := ∃ off len, c.payload = .window off len ∧ off + len ≤ n

theorem readAddrCredM_within {data spare : Bytes} {h : UInt8} {bit pos : Nat} {c : CredM} (e : readAddrCredM data spare h bit pos = .ok c) :
    WithinArrays (data.length + spare.length) c := by
  unfold readAddrCredM at e
  split at e
  · cases e
  · split at e <;> (injection e with e; subst e; exact ⟨_, _, rfl, by omega⟩)

theorem read_slot (m : Go.Mem) (s : Slice) (hs : s.Wf m) (c : CredM) (hc : WithinArrays ((m.read s).length + ((m.room s).drop s.len).length) c) :
    CredO.value m ⟨c.kind, slotOf s c.payload⟩ = c.read (m.read s ++ (m.room s).drop s.len) := by
  obtain ⟨off, len, e, hw⟩ := hc
  rw [← List.length_append, room_split m s hs.len, Mem.room_length m s hs] at hw
  rw [room_split m s hs.len]
  simp only [CredO.value, CredM.read, e, slotOf, Go.Mem.read, Go.Mem.room, Addr.Mem.read, ← List.drop_drop, List.drop_take, List.take_take]
  congr 2
  omega

theorem parse_placed (m : Go.Mem) (s : Slice) (hs : s.Wf m) (strict : Bool) (x : AddressM)
    (e : NewAddressFromBytesM strict (m.read s) ((m.room s).drop s.len) = .ok x) : (placed s x).value m = x.read (m.read s ++ (m.room s).drop s.len) := by
  have key : ∀ c, WithinArrays ((m.read s).length + ((m.room s).drop s.len).length) c →
      CredO.value m ⟨c.kind, slotOf s c.payload⟩ = c.read (m.read s ++ (m.room s).drop s.len) := fun c hc => read_slot m s hs c hc
  generalize m.read s = data at *
  generalize (m.room s).drop s.len = spare at *
  unfold NewAddressFromBytesM at e
  split at e
  · cases e
  simp only at e
  split at e
  · obtain ⟨b, -, e⟩ := bind_ok e
    cases e; rfl
  split at e
  · obtain ⟨c, h1, e⟩ := bind_ok e
    obtain ⟨d, h2, e⟩ := bind_ok e
    cases e
    simp only [placed, AddrO.value, AddressM.read, key _ (readAddrCredM_within h1), key _ (readAddrCredM_within h2)]
  split at e
  · split at e
    · cases e
    obtain ⟨c, h1, e⟩ := bind_ok e
    obtain ⟨x1, -, e⟩ := bind_ok e
    obtain ⟨x2, -, e⟩ := bind_ok e
    obtain ⟨x3, -, e⟩ := bind_ok e
    split at e
    · cases e
    cases e
    simp only [placed, AddrO.value, AddressM.read, key _ (readAddrCredM_within h1)]
  split at e
  · split at e
    · cases e
    split at e
    · cases e
    obtain ⟨c, h1, e⟩ := bind_ok e
    cases e
    simp only [placed, AddrO.value, AddressM.read, key _ (readAddrCredM_within h1)]
  split at e
  · split at e
    · cases e
    split at e
    · cases e
    obtain ⟨c, h1, e⟩ := bind_ok e
    cases e
    simp only [placed, AddrO.value, AddressM.read, key _ (readAddrCredM_within h1)]
  · cases e

/-- **C112** (parsing). The object that `NewAddressFromBytes` makes holds the parsed address; its hashes are bytes of the caller's slice. -/
theorem C112_parsed (h : Heap) (strict : Bool) (s : Slice) (hs : s.Wf h.arrays) (x : Address)
    (hx : NewAddressFromBytes strict (h.arrays.read s) ((h.arrays.room s).drop s.len) = .ok x) :
    (step h (.parse strict s)).address h.addrs.length = some x := by
  rw [← parseM_read] at hx
  cases e : NewAddressFromBytesM strict (h.arrays.read s) ((h.arrays.room s).drop s.len) with
  | err m => rw [e] at hx; cases hx
  | panic => rw [e] at hx; cases hx
  | ok y =>
    rw [e] at hx
    injection hx with hx
    simp only [step, e, Heap.address, (push_new h _).1, (push_new h _).2, Option.map_some, parse_placed h.arrays s hs strict y e, hx]

/-! ### What does change an address -/

theorem read_set_same (m : Go.Mem) (s : Slice) (hs : s.Wf m) (i : Nat) (hi : i < s.len) (v : UInt8) :
    ∃ m', m.modifyAt s i (fun _ => v) = .ok m' ∧ m'.read s = (m.read s).set i v := by
  refine ⟨_, if_pos hi, ?_⟩
  unfold Go.Mem.read
  rw [Mem.array_set _ _ _ _ hs.arr, if_pos rfl]
  have h1 := hs.cap
  have h2 := hs.len
  apply List.ext_getElem?
  intro k
  simp only [List.getElem?_take, List.getElem?_drop, List.getElem?_modify, List.getElem?_set, List.length_take, List.length_drop]
  by_cases hk : k < s.len
  · by_cases e : i = k
    · subst e
      rw [if_pos hk, if_pos rfl, if_pos (by omega)]
      rw [List.getElem?_eq_getElem (by omega)]
      simp
    · simp [hk, e]
  · rw [if_neg hk, if_neg (by omega), if_neg hk]

/-- **C112** (hashes are shared). The slice given to `NewKeyStakeCredential` stays part of the credential and of every address made with it: a byte assigned later changes the address. -/
theorem C112_hash_shared (h : Heap) (s : Slice) (hs : s.Wf h.arrays) (n : NetPtr) (net : NetworkInfo) (hn : h.netAt n = some net) (i : Nat) (hi : i < s.len) (v : UInt8) :
    (run h [.keyCred s, .newEnterprise n (.var h.creds.length), .setByte s i v]).address h.addrs.length =
      some (NewEnterpriseAddress net (NewKeyStakeCredential ((h.arrays.read s).set i v))) := by
  have hn' : (step h (.keyCred s)).netAt n = some net := by cases n <;> exact hn
  have hc : (step h (.keyCred s)).credAt (.var h.creds.length) = some ⟨0, s⟩ := List.getElem?_concat_length ..
  obtain ⟨m', h1, h2⟩ := read_set_same h.arrays s hs i hi v
  have e2 : run h [.keyCred s, .newEnterprise n (.var h.creds.length), .setByte s i v] =
      step (step (step h (.keyCred s)) (.newEnterprise n (.var h.creds.length))) (.setByte s i v) := rfl
  have e1 : step (step h (.keyCred s)) (.newEnterprise n (.var h.creds.length)) = (step h (.keyCred s)).push (some (.enterprise net ⟨0, s⟩)) := by
    show Heap.push _ (do return .enterprise (← (step h (.keyCred s)).netAt n) (← (step h (.keyCred s)).credAt (.var h.creds.length))) = _
    rw [hn', hc]; rfl
  rw [e2, e1]
  generalize hh1 : step h (.keyCred s) = h1'
  have ea : h1'.arrays = h.arrays := by rw [← hh1]; rfl
  have el : h.addrs.length = h1'.addrs.length := by rw [← hh1]; rfl
  have e3 : step (h1'.push (some (.enterprise net ⟨0, s⟩))) (.setByte s i v) = { h1'.push (some (.enterprise net ⟨0, s⟩)) with arrays := m' } := by
    simp only [step, (push_new h1' _).2, ea, h1]
  rw [e3, el]
  simp only [Heap.address, (push_new h1' _).1, Option.map_some, AddrO.value, CredO.value, h2]
  rfl

/-- **C112** (a base address and the addresses converted from it share hashes). -/
theorem C112_hash_shared_by_conversion (h : Heap) (a : Nat) (net : NetworkInfo) (k : UInt8) (s : Slice) (d : CredO) (ha : h.addrs[a]? = some (.base net ⟨k, s⟩ d))
    (hs : s.Wf h.arrays) (i : Nat) (hi : i < s.len) (v : UInt8) :
    (run h [.toEnterprise a, .setByte s i v]).address h.addrs.length = some (.enterprise net ⟨k, (h.arrays.read s).set i v⟩) ∧
    ∃ d', (run h [.toEnterprise a, .setByte s i v]).address a = some (.base net ⟨k, (h.arrays.read s).set i v⟩ d') := by
  obtain ⟨m', h1, h2⟩ := read_set_same h.arrays s hs i hi v
  have hl : a < h.addrs.length := (List.getElem?_eq_some_iff.1 ha).1
  have e1 : step h (.toEnterprise a) = h.push (some (.enterprise net ⟨k, s⟩)) := by rw [step, ha]
  have e : run h [.toEnterprise a, .setByte s i v] = { h.push (some (.enterprise net ⟨k, s⟩)) with arrays := m' } := by
    show step (step h (.toEnterprise a)) (.setByte s i v) = _
    rw [e1]
    simp only [step, (push_new h _).2, h1]
  have ha' : (h.push (some (.enterprise net ⟨k, s⟩))).addrs[a]? = some (.base net ⟨k, s⟩ d) := (getElem_push _ _ _ hl).trans ha
  rw [e]
  simp only [Heap.address, (push_new h _).1, ha', Option.map_some, AddrO.value, CredO.value, h2]
  exact ⟨trivial, _, rfl⟩

/-- **C112** (the pointer that `NetworkInfo()` gives). An assignment through it moves this address to another network, and no other. -/
theorem C112_network_pointer (h : Heap) (hh : HeapOk h) (a : Nat) (x : Address) (hx : h.address a = some x) (hb : ∀ b, x ≠ .byron b) (n : NetworkInfo) :
    (∃ x', (step h (.setNet (.field a) n)).address a = some x' ∧ networkInfo x' = n ∧
      (x' = x ↔ n = networkInfo x)) ∧
    ∀ a', a' ≠ a → (step h (.setNet (.field a) n)).address a' = h.address a' := by
  refine ⟨?_, fun a' hne => ?_⟩
  · unfold Heap.address at hx
    rw [Option.map_eq_some_iff] at hx
    obtain ⟨o, ho, rfl⟩ := hx
    have e : (step h (.setNet (.field a) n)).address a = some ((o.setNet n).value h.arrays) := by
      simp [step, Heap.address, ho]
    refine ⟨_, e, ?_⟩
    cases o with
    | byron b => exact absurd rfl (hb b)
    | base n' p s => simp only [AddrO.setNet, AddrO.value, networkInfo, Address.base.injEq, and_true]
    | enterprise n' p => simp only [AddrO.setNet, AddrO.value, networkInfo, Address.enterprise.injEq, and_true]
    | pointer n' p s => simp only [AddrO.setNet, AddrO.value, networkInfo, Address.pointer.injEq, and_true]
    | reward n' s => simp only [AddrO.setNet, AddrO.value, networkInfo, Address.reward.injEq, and_true]
  · cases e : h.addrs[a']? with
    | some o => exact C112_unchanged h hh [.setNet (.field a) n] a' o e (by simpa [Assigns] using fun e => hne e.symm)
    | none =>
      have : (h.addrs.modify a (AddrO.setNet n))[a']? = none := by simpa using e
      simp only [step, Heap.address, this, e]

/-- **C112** (the slice that `Bytes()` gives is new). Assignments to it change no address. -/
theorem C112_bytes_fresh (h : Heap) (hh : HeapOk h) (a : Nat) (x : Address) (hx : h.address a = some x) :
    let r : Slice := ⟨h.arrays.length, 0, (bytes x).length, (bytes x).length⟩
    (step h (.bytes a)).arrays.read r = bytes x ∧
    ∀ (writes : List (Nat × UInt8)) (a' : Nat), (run h (.bytes a :: writes.map fun w => .setByte r w.1 w.2)).address a' = h.address a' := by
  intro r
  refine ⟨?_, fun writes a' => ?_⟩
  · simp only [step, hx, Go.Mem.read, Mem.array_last, List.drop_zero, List.take_length, r]
  · cases e : h.addrs[a']? with
    | some o =>
      refine C112_unchanged h hh _ a' o e fun y hy => ?_
      rcases List.mem_cons.1 hy with rfl | hy
      · exact id
      · obtain ⟨w, -, rfl⟩ := List.mem_map.1 hy
        rintro ⟨t, ht, h1, -⟩
        have := hh.addrs o (List.mem_of_getElem? e) t ht
        rw [← h1] at this
        exact absurd this (Nat.lt_irrefl _)
    | none =>
      have : ∀ (l : List Act) (g : Heap), (∀ y ∈ l, ∃ s i v, y = .setByte s i v) → (run g l).addrs = g.addrs := by
        intro l
        induction l with
        | nil => exact fun _ _ => rfl
        | cons y l ih =>
          intro g hg
          obtain ⟨s, i, v, rfl⟩ := hg y List.mem_cons_self
          have h1 : (step g (.setByte s i v)).addrs = g.addrs := by simp only [step]; split <;> rfl
          exact (ih _ fun y hy => hg y (List.mem_cons_of_mem _ hy)).trans h1
      have h2 : (run h (.bytes a :: writes.map fun w => .setByte r w.1 w.2)).addrs = h.addrs := by
        refine (this _ (step h (.bytes a)) fun y hy => ?_).trans (by simp only [step, hx])
        obtain ⟨w, -, rfl⟩ := List.mem_map.1 hy
        exact ⟨_, _, _, rfl⟩
      simp only [Heap.address, h2, e, Option.map_none]

/-- What `NewAddressFromBytes` makes depends on the header, the length, and for pointer addresses on what follows the hash. -/
theorem parseM_same (strict : Bool) (hd : UInt8) (t t' spare spare' : Bytes) (x : AddressM) (e : NewAddressFromBytesM strict (hd :: t) spare = .ok x)
    (hl : t'.length = t.length) (hl' : spare'.length = spare.length) (hb : ∀ b, x ≠ .byron b) (hp : ∀ n c p, x = .pointer n c p → t'.drop 28 = t.drop 28) :
    NewAddressFromBytesM strict (hd :: t') spare' = .ok x := by
  have rc : ∀ bit pos, readAddrCredM (hd :: t') spare' hd bit pos = readAddrCredM (hd :: t) spare hd bit pos := fun bit pos => by
    simp only [readAddrCredM, List.length_cons, hl, hl']
  unfold NewAddressFromBytesM at e ⊢
  simp only [rc, List.length_cons, hl] at e ⊢
  split at e
  · obtain ⟨b, -, e⟩ := bind_ok e
    cases e; exact absurd rfl (hb b)
  next c1 =>
  rw [if_neg c1]
  split at e
  · next c2 => rw [if_pos c2]; exact e
  next c2 =>
  rw [if_neg c2]
  split at e
  · next c3 =>
    rw [if_pos c3]
    have hd' : ∀ n c p, x = .pointer n c p → ∀ k, (hd :: t').drop (29 + k) = (hd :: t).drop (29 + k) := fun n c p hx k => by
      rw [show 29 + k = (28 + k) + 1 by omega, List.drop_succ_cons, List.drop_succ_cons, ← List.drop_drop, ← List.drop_drop, hp n c p hx]
    have ex : ∃ n c p, x = .pointer n c p := by
      split at e
      · cases e
      obtain ⟨c, h1, e⟩ := bind_ok e
      obtain ⟨x1, -, e⟩ := bind_ok e
      obtain ⟨x2, -, e⟩ := bind_ok e
      obtain ⟨x3, -, e⟩ := bind_ok e
      split at e
      · cases e
      cases e
      exact ⟨_, _, _, rfl⟩
    obtain ⟨n, c, p, hx⟩ := ex
    have h0 := hd' n c p hx
    simp only [Nat.add_assoc, h0, show (hd :: t').drop 29 = (hd :: t).drop 29 from h0 0] at e ⊢
    exact e
  · next c3 => rw [if_neg c3]; exact e

theorem room_modify (m m' : Go.Mem) (s : Slice) (i : Nat) (v : UInt8) (h : m.modifyAt s i (fun _ => v) = .ok m') : (m'.room s).length = (m.room s).length := by
  unfold Mem.modifyAt at h
  split at h
  · injection h with h
    subst h
    unfold Go.Mem.room
    by_cases c : s.arr < m.length
    · rw [Mem.array_set _ _ _ _ c, if_pos rfl]; simp
    · rw [List.set_eq_of_length_le (by omega)]
  · cases h

/-- **C112** (hashes are shared with the parsed buffer). A byte after the header that is assigned after `NewAddressFromBytes` has returned changes the address as if the changed buffer had
been parsed. (In a pointer address: a byte of the hash. The three numbers are copies.) -/
theorem C112_buffer_shared (h : Heap) (strict : Bool) (s : Slice) (hs : s.Wf h.arrays) (x : Address)
    (hx : NewAddressFromBytes strict (h.arrays.read s) ((h.arrays.room s).drop s.len) = .ok x) (i : Nat) (hi : i < s.len) (v : UInt8) (h1 : 1 ≤ i)
    (hb : ∀ b, x ≠ .byron b) (hp : ∀ n c p, x = .pointer n c p → i < 29) :
    let h' := run h [.parse strict s, .setByte s i v]
    h'.arrays.read s = (h.arrays.read s).set i v ∧
    ∃ x', NewAddressFromBytes strict (h'.arrays.read s) ((h'.arrays.room s).drop s.len) = .ok x' ∧ h'.address h.addrs.length = some x' := by
  intro h'
  rw [← parseM_read] at hx
  cases e : NewAddressFromBytesM strict (h.arrays.read s) ((h.arrays.room s).drop s.len) with
  | err m => rw [e] at hx; cases hx
  | panic => rw [e] at hx; cases hx
  | ok y =>
    rw [e] at hx
    injection hx with hx
    obtain ⟨m', e1, e2⟩ := read_set_same h.arrays s hs i hi v
    have e3 : step h (.parse strict s) = h.push (some (placed s y)) := by simp only [step, e]
    have e4 : h' = { h.push (some (placed s y)) with arrays := m' } := by
      show step (step h (.parse strict s)) (.setByte s i v) = _
      rw [e3]
      simp only [step, (push_new h _).2, e1]
    have hroom := room_modify _ _ _ _ _ e1
    have hs' : s.Wf m' := by
      have hm : m' = h.arrays.set s.arr ((h.arrays.array s.arr).modify (s.off + i) fun _ => v) := by
        unfold Mem.modifyAt at e1
        rw [if_pos hi] at e1
        exact (Res.ok.inj e1).symm
      refine ⟨?_, ?_, hs.len⟩
      · rw [hm, List.length_set]; exact hs.arr
      · rw [hm, Mem.array_set _ _ _ _ hs.arr, if_pos rfl, List.length_modify]; exact hs.cap
    have key : NewAddressFromBytesM strict (m'.read s) ((m'.room s).drop s.len) = .ok y := by
      rw [e2]
      cases hr : h.arrays.read s with
      | nil => rw [hr] at e; cases e
      | cons hd t =>
        rw [hr] at e
        obtain ⟨j, rfl⟩ : ∃ j, i = j + 1 := ⟨i - 1, by omega⟩
        rw [List.set_cons_succ]
        refine parseM_same strict hd t _ _ _ y e (by simp) (by simp [hroom]) (fun b hy => ?_) (fun n c p hy => ?_)
        · subst hy; exact hb b hx.symm
        · subst hy
          have := hp _ _ _ hx.symm
          rw [List.drop_set_of_lt (by omega)]
    refine ⟨by rw [e4]; exact e2, (placed s y).value m', ?_, ?_⟩
    · rw [e4, ← parseM_read]
      show mapRes _ (NewAddressFromBytesM strict (m'.read s) ((m'.room s).drop s.len)) = _
      rw [key, parse_placed m' s hs' strict y key]
      rfl
    · rw [e4]
      show ((h.push (some (placed s y))).addrs[h.addrs.length]?).map (AddrO.value m') = _
      rw [(push_new h _).1]
      rfl

/-- **C112** (credentials and networks). The credential constructors keep the slice and set the kind; every call of `TestNet` and `MainNet`, and `NetworkInfo` of a Byron address, gives an object of its own. -/
theorem C112_parts (h : Heap) (s : Slice) (a : Nat) (b : ByronAddress) (ha : h.addrs[a]? = some (.byron b)) :
    ((step h (.keyCred s)).credAt (.var h.creds.length)).map (CredO.value h.arrays) = some (NewKeyStakeCredential (h.arrays.read s)) ∧
    ((step h (.scriptCred s)).credAt (.var h.creds.length)).map (CredO.value h.arrays) = some (NewScriptStakeCredential (h.arrays.read s)) ∧
    (step h .testNet).netAt (.var h.nets.length) = some ⟨0, 1097911063⟩ ∧
    (step h .mainNet).netAt (.var h.nets.length) = some ⟨1, 764824073⟩ ∧
    (step h (.networkInfo a)).netAt (.var h.nets.length) = some (networkInfo (.byron b)) := by
  refine ⟨?_, ?_, ?_, ?_, ?_⟩
  · simp [step, Heap.credAt, CredO.value, NewKeyStakeCredential]
  · simp [step, Heap.credAt, CredO.value, NewScriptStakeCredential]
  · simp [step, Heap.netAt, TestNet]
  · simp [step, Heap.netAt, MainNet]
  · simp [step, Heap.netAt, ha]

/-! ### Cases -/

/-- A program: a hash, a network, a credential, an enterprise address. Then it changes the network and the credential it has used: the address stays the same. -/
example : ∃ o, (run ⟨[], [], [], []⟩ [.make (List.replicate 28 7), .mainNet, .keyCred ⟨0, 0, 28, 28⟩, .newEnterprise (.var 0) (.var 0)]).addrs[0]? = some o ∧
    ¬ Assigns 0 (hashSlices o) (.setNet (.var 0) TestNet) ∧ ¬ Assigns 0 (hashSlices o) (.setCred (.var 0) ⟨1, ⟨0, 0, 0, 0⟩⟩) ∧
    RunOk ⟨[], [], [], []⟩ [.make (List.replicate 28 7), .mainNet, .keyCred ⟨0, 0, 28, 28⟩, .newEnterprise (.var 0) (.var 0)] ∧
    (run ⟨[], [], [], []⟩ [.make (List.replicate 28 7), .mainNet, .keyCred ⟨0, 0, 28, 28⟩, .newEnterprise (.var 0) (.var 0), .setNet (.var 0) TestNet,
      .setCred (.var 0) ⟨1, ⟨0, 0, 0, 0⟩⟩]).address 0 = some (.enterprise MainNet ⟨0, List.replicate 28 7⟩) :=
  ⟨_, rfl, id, id, ⟨trivial, trivial, ⟨by decide, by decide, by decide⟩, trivial, trivial⟩, by decide⟩

/-- A buffer of 29 bytes that holds an enterprise address is parsed, then used again for something else. -/
example : (run ⟨[], [], [], []⟩ [.make (0x61 :: List.replicate 28 7), .parse false ⟨0, 0, 29, 29⟩, .setByte ⟨0, 0, 29, 29⟩ 1 9]).address 0 =
    some (.enterprise MainNet ⟨0, 9 :: List.replicate 27 7⟩) := by decide +kernel

end Cardano.Props
