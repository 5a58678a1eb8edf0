import Verif.Props.Sharing
/-!
# Property C127: lists of inputs and outputs taken from a builder
-/
set_option autoImplicit false

namespace Cardano.Props
open Cbor TxSpec Transaction TxBuilder TxHeap Addr

/-- The slices of a builder that lie in the array of `s` are at least as long as `s`. -/
def Ahead (b : PBuilder) (s : Slice) : Prop :=
  (b.body.inputs.arr = s.arr → s.len ≤ b.body.inputs.len) ∧ (b.body.outputs.arr = s.arr → s.len ≤ b.body.outputs.len)

theorem getD_set_self (l : List (List Nat)) (i : Nat) (x : List Nat) (h : i < l.length) : (l.set i x).getD i [] = x := by simp [h]

/-- `append` to another slice of the array does not change a slice that is not longer. -/
theorem append_keeps (st : Store) (t s : Slice) (ps : List Nat) (spare : Nat) (hs : Within st s) (ht : Within st t) (h : t.arr = s.arr → s.len ≤ t.len) :
    (st.append t ps spare).1.read s = st.read s ∧ Within (st.append t ps spare).1 s ∧ ((st.append t ps spare).2.arr = s.arr → s.len ≤ (st.append t ps spare).2.len) := by
  obtain ⟨-, -, -, -, h5, -, -, h8⟩ := append_ok st t ps spare ht
  by_cases e : t.arr = s.arr
  · have hl := h e
    obtain ⟨t1, t2⟩ := ht
    unfold Store.append
    simp only
    split
    · refine ⟨?_, ⟨by simpa using hs.1, ?_⟩, fun _ => Nat.le_trans hl (Nat.le_add_right _ _)⟩
      · simp only [Store.read]
        rw [← e]
        have : (st.arrays.set t.arr ((st.arrays.getD t.arr []).take t.len ++ ps ++ (st.arrays.getD t.arr []).drop (t.len + ps.length))).getD t.arr []
            = (st.arrays.getD t.arr []).take t.len ++ ps ++ (st.arrays.getD t.arr []).drop (t.len + ps.length) := by simp [t1]
        rw [this, List.append_assoc, List.take_append_of_le_length (by rw [List.length_take]; omega), List.take_take, Nat.min_eq_left hl]
      · simp only
        rw [← e, getD_set_self _ _ _ t1]
        simp only [List.length_append, List.length_take, List.length_drop]
        omega
    · have : ∀ x : List Nat, (st.arrays ++ [x]).getD s.arr [] = st.arrays.getD s.arr [] := fun x => by simp [List.getElem?_append_left hs.1]
      refine ⟨by simp only [Store.read, this], ⟨?_, by simp only [this]; exact hs.2⟩, fun e' => ?_⟩
      · have := hs.1; simp; omega
      · have h1 := hs.1
        have : st.arrays.length = s.arr := e'
        omega
  · obtain ⟨r, w⟩ := h5.read s hs (by simpa using fun x => e x.symm)
    refine ⟨r, w, fun e' => ?_⟩
    rcases h8 with h8 | h8
    · exact absurd (h8.symm.trans e') e
    · have := hs.1; omega

theorem newOutput_keeps (st : Store) (o : TxOutput) (s : Slice) (hs : Within st s) : (st.newOutput o).1.read s = st.read s ∧ Within (st.newOutput o).1 s := ⟨rfl, hs⟩

/-- What `MinFee` does to a slice that the builder is ahead of. -/
theorem minFee_keeps (C : Crypto) (st : Store) (b : PBuilder) (hb : Sound st b) (s : Slice) (hs : Within st s) (ha : Ahead b s) (spare : Nat) :
    (TxHeap.minFee C st b spare).2.1.read s = st.read s ∧ Within (TxHeap.minFee C st b spare).2.1 s ∧ Ahead (TxHeap.minFee C st b spare).2.2 s := by
  have h : (TxHeap.minFee C st b spare).2.1.read s = st.read s ∧ Within (TxHeap.minFee C st b spare).2.1 s := by
    by_cases c : totalIn (st.inputs b.body.inputs) ≠ totalOut (st.outputs b.body.outputs)
    · have e : (TxHeap.minFee C st b spare).2.1 = ((st.newOutput ⟨innerAddr, totalIn (st.inputs b.body.inputs) - totalOut (st.outputs b.body.outputs) - 200000⟩).1.append
          b.body.outputs [(st.newOutput ⟨innerAddr, totalIn (st.inputs b.body.inputs) - totalOut (st.outputs b.body.outputs) - 200000⟩).2] spare).1 := by
        simp only [TxHeap.minFee, if_pos c]
      rw [e]
      obtain ⟨k1, k2, -⟩ := append_keeps (st.newOutput ⟨innerAddr, totalIn (st.inputs b.body.inputs) - totalOut (st.outputs b.body.outputs) - 200000⟩).1 b.body.outputs s
        [(st.newOutput ⟨innerAddr, totalIn (st.inputs b.body.inputs) - totalOut (st.outputs b.body.outputs) - 200000⟩).2] spare hs hb.outs ha.2
      exact ⟨k1, k2⟩
    · have e : (TxHeap.minFee C st b spare).2.1 = st := by
        simp only [TxHeap.minFee, if_neg c]
      rw [e]
      exact ⟨rfl, hs⟩
  exact ⟨h.1, h.2, ha⟩

/-- One call. -/
theorem call_keeps (C : Crypto) (st : Store) (b : PBuilder) (hb : Sound st b) (s : Slice) (hs : Within st s) (ha : Ahead b s) (c : Call) :
    (call C st b c).1.read s = st.read s ∧ Within (call C st b c).1 s ∧ Ahead (call C st b c).2 s := by
  cases c with
  | addInputs ps spare =>
    obtain ⟨h1, h2, h3⟩ := append_keeps st b.body.inputs s ps spare hs hb.ins ha.1
    exact ⟨h1, h2, h3, ha.2⟩
  | addOutputs ps spare =>
    obtain ⟨h1, h2, h3⟩ := append_keeps st b.body.outputs s ps spare hs hb.outs ha.2
    exact ⟨h1, h2, ha.1, h3⟩
  | setTTL n => exact ⟨rfl, hs, ha⟩
  | sign k => exact ⟨rfl, hs, ha⟩
  | setMetadata m => exact ⟨rfl, hs, ha⟩
  | build => exact ⟨rfl, hs, ha⟩
  | bytesOf h => exact ⟨rfl, hs, ha⟩
  | minFee spare => exact minFee_keeps C st b hb s hs ha spare
  | addChange addr spare spare' =>
    obtain ⟨h1, h2, h3⟩ := minFee_keeps C st b hb s hs ha spare
    obtain ⟨g1, -⟩ := minFee_ok C st b hb spare
    let q := TxHeap.minFee C st b spare
    let o : TxOutput := ⟨addr, totalIn (q.2.1.inputs q.2.2.body.inputs) - totalOut (q.2.1.outputs q.2.2.body.outputs) - q.1⟩
    obtain ⟨k1, k2, k3⟩ := append_keeps (q.2.1.newOutput o).1 q.2.2.body.outputs s [(q.2.1.newOutput o).2] spare' h2 g1.outs h3.2
    exact ⟨k1.trans h1, k2, h3.1, k3⟩

/-- A slice that no builder writes into. -/
structure Kept (w : World) (s : Slice) : Prop where
  within : Within w.store s
  ahead : ∀ (i : Nat) (b : PBuilder), w.builders[i]? = some b → Ahead b s

theorem act_keeps (C : Crypto) (w : World) (hw : WorldOk w) (s : Slice) (hs : Kept w s) (a : Act) : (act C w a).store.read s = w.store.read s ∧ Kept (act C w a) s := by
  cases a with
  | newInput i => exact ⟨rfl, hs.within, hs.ahead⟩
  | newOutput o => exact ⟨rfl, hs.within, hs.ahead⟩
  | writeInput p i => exact ⟨rfl, hs.within, hs.ahead⟩
  | writeOutput p o => exact ⟨rfl, hs.within, hs.ahead⟩
  | newBuilder p ks =>
    obtain ⟨-, n2, -, n4⟩ := newBuilder_ok w.store p ks
    obtain ⟨r, wi⟩ := n2.read s hs.within (by simp)
    refine ⟨r, wi, fun i b hi => ?_⟩
    have hi : (w.builders ++ [(newBuilder w.store p ks).2])[i]? = some b := hi
    rcases List.mem_append.1 (List.mem_of_getElem? hi) with hm | hm
    · obtain ⟨j, hj⟩ := List.mem_iff_getElem?.1 hm
      exact hs.ahead j b hj
    · rw [List.mem_singleton.1 hm]
      have h1 := hs.within.1
      exact ⟨fun e => by have := n4 _ (List.mem_cons_self); omega, fun e => by have := n4 _ (List.mem_cons_of_mem _ List.mem_cons_self); omega⟩
  | call j c =>
    cases hj : w.builders[j]? with
    | none =>
      have e : act C w (.call j c) = w := by simp only [act, hj]
      rw [e]
      exact ⟨rfl, hs⟩
    | some b =>
      have e : act C w (.call j c) = ⟨(call C w.store b c).1, w.builders.set j (call C w.store b c).2⟩ := by simp only [act, hj]
      rw [e]
      obtain ⟨h1, h2, h3⟩ := call_keeps C w.store b (hw.sound j b hj) s hs.within (hs.ahead j b hj) c
      refine ⟨h1, h2, fun i b' hi => ?_⟩
      have hi : (w.builders.set j (call C w.store b c).2)[i]? = some b' := hi
      rw [List.getElem?_set] at hi
      split at hi
      · split at hi
        · injection hi with hi; subst hi; exact h3
        · cases hi
      · exact hs.ahead i b' hi

theorem acts_keep (C : Crypto) (l : List Act) : ∀ (w : World), WorldOk w → Safe C w l → ∀ s, Kept w s → (acts C w l).store.read s = w.store.read s ∧ Kept (acts C w l) s := by
  induction l with
  | nil => exact fun w _ _ s hs => ⟨rfl, hs⟩
  | cons a l ih =>
    intro w hw hl s hs
    obtain ⟨h1, h2⟩ := act_keeps C w hw s hs a
    obtain ⟨k1, k2⟩ := ih _ (act_ok C w hw a hl.1).1 hl.2 s h2
    exact ⟨k1.trans h1, k2⟩

/-- The lists that builders have now are kept. -/
theorem own_kept (w : World) (hw : WorldOk w) (i : Nat) (b : PBuilder) (hi : w.builders[i]? = some b) : Kept w b.body.inputs ∧ Kept w b.body.outputs := by
  have hb := hw.sound i b hi
  refine ⟨⟨hb.ins, fun j b' hj => ?_⟩, ⟨hb.outs, fun j b' hj => ?_⟩⟩
  · by_cases e : i = j
    · subst e
      rw [hi] at hj; injection hj with hj; subst hj
      exact ⟨fun _ => Nat.le_refl _, fun e => absurd e.symm hb.apart⟩
    · have := hw.apart j i b' b hj hi (Ne.symm e)
      exact ⟨fun x => absurd (show b'.body.inputs.arr ∈ arraysOf b by rw [x]; simp [arraysOf]) (this _ (by simp [arraysOf])),
        fun x => absurd (show b'.body.outputs.arr ∈ arraysOf b by rw [x]; simp [arraysOf]) (this _ (by simp [arraysOf]))⟩
  · by_cases e : i = j
    · subst e
      rw [hi] at hj; injection hj with hj; subst hj
      exact ⟨fun e => absurd e hb.apart, fun _ => Nat.le_refl _⟩
    · have := hw.apart j i b' b hj hi (Ne.symm e)
      exact ⟨fun x => absurd (show b'.body.inputs.arr ∈ arraysOf b by rw [x]; simp [arraysOf]) (this _ (by simp [arraysOf])),
        fun x => absurd (show b'.body.outputs.arr ∈ arraysOf b by rw [x]; simp [arraysOf]) (this _ (by simp [arraysOf]))⟩

/-- What is read through a kept list. -/
theorem kept_seen (C : Crypto) (l : List Act) (w : World) (hw : WorldOk w) (hl : Safe C w l) (s : Slice) (hs : Kept w s) :
    ((∀ p ∈ w.store.read s, p < w.store.outs.length) → (acts C w l).store.outputs s = w.store.outputs s) ∧
    ((∀ p ∈ w.store.read s, p < w.store.ins.length) → (acts C w l).store.inputs s = w.store.inputs s) := by
  obtain ⟨⟨r1, e1⟩, ⟨r2, e2⟩⟩ := C97_objects_unchanged C l w hw hl
  obtain ⟨h1, -⟩ := acts_keep C l w hw hl s hs
  refine ⟨fun hp => ?_, fun hp => ?_⟩
  · rw [Store.outputs, Store.outputs, h1]
    refine List.map_congr_left fun p hpp => ?_
    simp [Store.output, e2, List.getElem?_append_left (hp p hpp)]
  · rw [Store.inputs, Store.inputs, h1]
    refine List.map_congr_left fun p hpp => ?_
    simp [Store.input, e1, List.getElem?_append_left (hp p hpp)]

/-- **C127 (partial).** The lists read from `tb.Tx().Body` stay as they were read, whatever is called afterwards, on this builder and on others. The rest of the claim, for lists
which the user made longer by `append`, is false: `C127_overwritten`. -/
theorem C127_lists_partial (C : Crypto) (w : World) (hw : WorldOk w) (l : List Act) (hl : Safe C w l) (i : Nat) (b : PBuilder) (hi : w.builders[i]? = some b) :
    (acts C w l).store.inputs b.body.inputs = w.store.inputs b.body.inputs ∧ (acts C w l).store.outputs b.body.outputs = w.store.outputs b.body.outputs := by
  obtain ⟨h1, h2⟩ := own_kept w hw i b hi
  have hb := hw.sound i b hi
  exact ⟨(kept_seen C l w hw hl _ h1).2 hb.inPtrs, (kept_seen C l w hw hl _ h2).1 hb.outPtrs⟩

/-- **C127: a full list.** If the array is full, the list with one more output is a copy, and stays as it is. -/
theorem C127_copied (C : Crypto) (w : World) (hw : WorldOk w) (i : Nat) (b : PBuilder) (hi : w.builders[i]? = some b) (p spare : Nat) (hp : p < w.store.outs.length)
    (hfull : b.body.outputs.len = (w.store.arrays.getD b.body.outputs.arr []).length) (l : List Act)
    (hl : Safe C ⟨(w.store.append b.body.outputs [p] spare).1, w.builders⟩ l) :
    (acts C ⟨(w.store.append b.body.outputs [p] spare).1, w.builders⟩ l).store.outputs (w.store.append b.body.outputs [p] spare).2 =
      w.store.outputs b.body.outputs ++ [w.store.output p] := by
  have hb := hw.sound i b hi
  obtain ⟨a1, a2, a3, a4, a5, a6, a7, -⟩ := append_ok w.store b.body.outputs [p] spare hb.outs
  have a8 : (w.store.append b.body.outputs [p] spare).2.arr = w.store.arrays.length := by
    unfold Store.append
    simp only
    rw [if_neg (by simp only [List.length_singleton]; omega)]
  have a9 : Grows w.store (w.store.append b.body.outputs [p] spare).1 [] := by
    refine ⟨a5.ins, a5.outs, a5.more, fun a ha _ => ?_⟩
    unfold Store.append
    simp only
    rw [if_neg (by simp only [List.length_singleton]; omega)]
    simp [List.getElem?_append_left ha]
  have hlt : ∀ (j : Nat) (b' : PBuilder), w.builders[j]? = some b' → b'.body.inputs.arr < w.store.arrays.length ∧ b'.body.outputs.arr < w.store.arrays.length :=
    fun j b' hj => ⟨(hw.sound j b' hj).ins.1, (hw.sound j b' hj).outs.1⟩
  have hw' : WorldOk ⟨(w.store.append b.body.outputs [p] spare).1, w.builders⟩ :=
    ⟨fun j b' hj => (hw.sound j b' hj).grow a9 (by simp), hw.apart⟩
  have hk : Kept ⟨(w.store.append b.body.outputs [p] spare).1, w.builders⟩ (w.store.append b.body.outputs [p] spare).2 := by
    refine ⟨a3, fun j b' hj => ?_⟩
    obtain ⟨h1, h2⟩ := hlt j b' hj
    exact ⟨fun e => by omega, fun e => by omega⟩
  have i2 : (w.store.append b.body.outputs [p] spare).1.output = w.store.output := funext fun p => by simp only [Store.output, a7]
  rw [(kept_seen C l _ hw' hl _ hk).1 ?_]
  · show List.map _ _ = _
    rw [a1, List.map_append, i2]
    rfl
  · intro q hq
    have hq : q ∈ (w.store.append b.body.outputs [p] spare).1.read (w.store.append b.body.outputs [p] spare).2 := hq
    show q < (w.store.append b.body.outputs [p] spare).1.outs.length
    rw [a1] at hq
    rw [a7]
    rcases List.mem_append.1 hq with h | h
    · exact hb.outPtrs q h
    · rw [List.mem_singleton.1 h]; exact hp

/-- **C127 is false.** `outs := append(tb.Tx().Body.Outputs, o)`: if the array has room, and what is spent is not what is paid, `MinFee` puts its placeholder in the place of `o`.
A transaction with these outputs pays to the address in the source of `MinFee`. -/
theorem C127_overwritten (C : Crypto) (st : Store) (b : PBuilder) (hb : Sound st b) (p spare spare' : Nat)
    (hroom : b.body.outputs.len < (st.arrays.getD b.body.outputs.arr []).length)
    (hne : totalIn (st.inputs b.body.inputs) ≠ totalOut (st.outputs b.body.outputs)) :
    (st.append b.body.outputs [p] spare).1.outputs (st.append b.body.outputs [p] spare).2 = st.outputs b.body.outputs ++ [st.output p] ∧
    (TxHeap.minFee C (st.append b.body.outputs [p] spare).1 b spare').2.1.outputs (st.append b.body.outputs [p] spare).2 =
      st.outputs b.body.outputs ++ [⟨innerAddr, totalIn (st.inputs b.body.inputs) - totalOut (st.outputs b.body.outputs) - 200000⟩] := by
  obtain ⟨a1, a2, a3, a4, a5, a6, a7, -⟩ := append_ok st b.body.outputs [p] spare hb.outs
  have i1 : (st.append b.body.outputs [p] spare).1.input = st.input := funext fun p => by simp only [Store.input, a6]
  have i2 : (st.append b.body.outputs [p] spare).1.output = st.output := funext fun p => by simp only [Store.output, a7]
  have hslice : (st.append b.body.outputs [p] spare).2 = ⟨b.body.outputs.arr, b.body.outputs.len + 1⟩ := by
    unfold Store.append
    simp only
    rw [if_pos (by simp only [List.length_singleton]; omega)]
    rfl
  have hlen : ((st.append b.body.outputs [p] spare).1.arrays.getD b.body.outputs.arr []).length = (st.arrays.getD b.body.outputs.arr []).length := by
    have := hb.outs.1
    unfold Store.append
    simp only
    rw [if_pos (by simp only [List.length_singleton]; omega)]
    simp only
    rw [getD_set_self _ _ _ this]
    simp only [List.length_append, List.length_take, List.length_drop, List.length_singleton]
    omega
  obtain ⟨r2, w2⟩ := a5.read _ hb.ins (by simpa using hb.apart)
  have s1 : Sound (st.append b.body.outputs [p] spare).1 b := by
    refine ⟨w2, a4, hb.apart, fun q hq => ?_, fun q hq => ?_⟩
    · rw [r2] at hq; rw [a6]; exact hb.inPtrs q hq
    · rw [a2] at hq; rw [a7]; exact hb.outPtrs q hq
  have e1 : (st.append b.body.outputs [p] spare).1.inputs b.body.inputs = st.inputs b.body.inputs := by rw [Store.inputs, r2, i1]; rfl
  have e2 : (st.append b.body.outputs [p] spare).1.outputs b.body.outputs = st.outputs b.body.outputs := by rw [Store.outputs, a2, i2]; rfl
  refine ⟨by rw [Store.outputs, a1, List.map_append, i2]; rfl, ?_⟩
  generalize (st.append b.body.outputs [p] spare).1 = st1 at *
  rw [hslice]
  have hne1 : totalIn (st1.inputs b.body.inputs) ≠ totalOut (st1.outputs b.body.outputs) := by rw [e1, e2]; exact hne
  obtain ⟨-, -, -, -, g5⟩ := feeSlices_ok st1 b s1 spare' (totalIn (st1.inputs b.body.inputs) ≠ totalOut (st1.outputs b.body.outputs))
    ⟨innerAddr, totalIn (st1.inputs b.body.inputs) - totalOut (st1.outputs b.body.outputs) - 200000⟩ _ rfl
  rw [if_pos hne1, if_pos hne1] at g5
  have hs2 : ((st1.newOutput ⟨innerAddr, totalIn (st1.inputs b.body.inputs) - totalOut (st1.outputs b.body.outputs) - 200000⟩).1.append b.body.outputs
      [(st1.newOutput ⟨innerAddr, totalIn (st1.inputs b.body.inputs) - totalOut (st1.outputs b.body.outputs) - 200000⟩).2] spare').2 = ⟨b.body.outputs.arr, b.body.outputs.len + 1⟩ := by
    unfold Store.append
    simp only
    rw [if_pos]
    · rfl
    · show b.body.outputs.len + 1 ≤ (st1.arrays.getD b.body.outputs.arr []).length
      omega
  rw [hs2] at g5
  have e3 : (TxHeap.minFee C st1 b spare').2.1 = ((st1.newOutput ⟨innerAddr, totalIn (st1.inputs b.body.inputs) - totalOut (st1.outputs b.body.outputs) - 200000⟩).1.append b.body.outputs
      [(st1.newOutput ⟨innerAddr, totalIn (st1.inputs b.body.inputs) - totalOut (st1.outputs b.body.outputs) - 200000⟩).2] spare').1 := by
    simp only [TxHeap.minFee, if_pos hne1]
  rw [e3, g5, e1, e2]

/-- **C127: what is paid.** A second transaction, with the list as its outputs: what is signed and sent after `MinFee` on the builder pays the placeholder address, and not
`o`, whatever the other parts of the transaction are. -/
theorem C127_pays_placeholder (C : Crypto) (st : Store) (b : PBuilder) (hb : Sound st b) (p spare spare' : Nat)
    (hroom : b.body.outputs.len < (st.arrays.getD b.body.outputs.arr []).length)
    (hne : totalIn (st.inputs b.body.inputs) ≠ totalOut (st.outputs b.body.outputs)) (t : PBody) (ht : t.outputs = (st.append b.body.outputs [p] spare).2)
    (ws : List VKeyWitness) (valid : Bool) (md : Option Metadata) (k : Nat) (bs : Bytes) (hH : ∀ m, (C.blake256 m).length = 32)
    (hfit : BodyFits ((TxHeap.minFee C (st.append b.body.outputs [p] spare).1 b spare').2.1.body t)) (hw : WitnessFits ws)
    (h : Transaction.bytes C ⟨(TxHeap.minFee C (st.append b.body.outputs [p] spare).1 b spare').2.1.body t, ws, valid, md⟩ k = .ok bs)
    (hmd : ∀ d, md = some d → ∀ b, d.enc (k + 1) = .ok b → ∃ x, parse b = some x) :
    ∃ body x, body.outputs = st.outputs b.body.outputs ++ [⟨innerAddr, totalIn (st.inputs b.body.inputs) - totalOut (st.outputs b.body.outputs) - 200000⟩] ∧
      parse bs = some (txItem body ws valid x) := by
  obtain ⟨aux, x, hp, -⟩ := C17_bytes_wellformed C hH _ k bs hfit hw h hmd
  refine ⟨_, x, ?_, hp⟩
  have := (C127_overwritten C st b hb p spare spare' hroom hne).2
  rw [← this, ← ht]
  rfl

/-! ### Examples -/

/-- Three outputs added one by one: the array has room for a fourth, as with Go's growth of slices (1, 2, 4). -/
def listActs (p : Protocol) : List Act :=
  [.newInput ⟨List.replicate 32 7, 0, 10000000⟩, .newOutput ⟨sampleAddr, 1000000⟩, .newBuilder p [], .call 0 (.addInputs [0] 0), .call 0 (.addOutputs [0] 0), .call 0 (.addOutputs [0] 0),
    .call 0 (.addOutputs [0] 1)]

theorem list_safe (C : Crypto) (p : Protocol) : Safe C emptyWorld (listActs p) := by
  have m : ∀ (n : Nat) (q : Nat), q ∈ [0] → q < n + 1 := fun n q h => by rw [List.mem_singleton.1 h]; omega
  exact ⟨trivial, trivial, trivial, m 0, m 0, m 0, m 0, trivial⟩

/-- The hypotheses of `C127_overwritten` and of `C127_lists_partial`. -/
example (C : Crypto) (p : Protocol) : ∃ b, WorldOk (acts C emptyWorld (listActs p)) ∧ (acts C emptyWorld (listActs p)).builders[0]? = some b ∧
    Sound (acts C emptyWorld (listActs p)).store b ∧
    b.body.outputs.len < ((acts C emptyWorld (listActs p)).store.arrays.getD b.body.outputs.arr []).length ∧
    totalIn ((acts C emptyWorld (listActs p)).store.inputs b.body.inputs) ≠ totalOut ((acts C emptyWorld (listActs p)).store.outputs b.body.outputs) := by
  have hw := (C97_builders_independent C (listActs p) emptyWorld emptyWorld_ok (list_safe C p)).1
  have e : acts C emptyWorld (listActs p) = ⟨⟨[⟨List.replicate 32 7, 0, 10000000⟩], [⟨sampleAddr, 1000000⟩], [[], [], [0], [0], [0, 0], [0, 0, 0, 0]]⟩,
      [⟨⟨⟨2, 1⟩, ⟨5, 3⟩, 0, 0, []⟩, [[]], 0, true, none, [], p, 0⟩]⟩ := by
    simp [acts, listActs, act, call, emptyWorld, newBuilder, Store.newInput, Store.newOutput, addInputs, addOutputs, Store.append]
  rw [e] at hw ⊢
  refine ⟨_, hw, rfl, hw.sound 0 _ rfl, ?_, ?_⟩
  · simp
  · simp [Store.inputs, Store.outputs, Store.read, Store.input, Store.output, totalIn, totalOut]

/-- The hypotheses of `C127_copied`: two outputs fill their array. -/
example (C : Crypto) (p : Protocol) : ∃ b, WorldOk (acts C emptyWorld ((listActs p).take 6)) ∧ (acts C emptyWorld ((listActs p).take 6)).builders[0]? = some b ∧
    b.body.outputs.len = ((acts C emptyWorld ((listActs p).take 6)).store.arrays.getD b.body.outputs.arr []).length := by
  have m : ∀ (n : Nat) (q : Nat), q ∈ [0] → q < n + 1 := fun n q h => by rw [List.mem_singleton.1 h]; omega
  exact ⟨_, (C97_builders_independent C ((listActs p).take 6) emptyWorld emptyWorld_ok ⟨trivial, trivial, trivial, m 0, m 0, m 0, trivial⟩).1, rfl, rfl⟩

end Cardano.Props
