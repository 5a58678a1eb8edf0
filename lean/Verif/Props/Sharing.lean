import Verif.Tx.Heap
import Verif.Props.Order
/-!
# Property C97: inputs and outputs shared between builders
-/
set_option autoImplicit false

namespace Cardano.Props
open Cbor TxSpec Transaction TxBuilder TxHeap Addr Bip32
open Ledger (read seen refOf outOf witOf Env UTxO OutputAddress readAux)

/-! ### Memory -/

/-- The slice lies in its array. -/
def Within (st : Store) (s : Slice) : Prop := s.arr < st.arrays.length ∧ s.len ≤ (st.arrays.getD s.arr []).length

/-- `st'` is `st` with more objects, more arrays, and changes in the arrays `own` only. -/
structure Grows (st st' : Store) (own : List Nat) : Prop where
  ins : ∃ l, st'.ins = st.ins ++ l
  outs : ∃ l, st'.outs = st.outs ++ l
  more : st.arrays.length ≤ st'.arrays.length
  same : ∀ a, a < st.arrays.length → a ∉ own → st'.arrays.getD a [] = st.arrays.getD a []

theorem Grows.refl (st : Store) (own : List Nat) : Grows st st own := ⟨⟨[], by simp⟩, ⟨[], by simp⟩, Nat.le_refl _, fun _ _ _ => rfl⟩

theorem Grows.mono {st st' : Store} {own own' : List Nat} (h : Grows st st' own) (hs : ∀ a ∈ own, a ∈ own') : Grows st st' own' :=
  ⟨h.ins, h.outs, h.more, fun a ha hn => h.same a ha (fun hm => hn (hs a hm))⟩

theorem Grows.trans {st st1 st2 : Store} {own own' : List Nat} (h : Grows st st1 own) (h' : Grows st1 st2 own')
    (hs : ∀ a ∈ own', a ∈ own ∨ st.arrays.length ≤ a) : Grows st st2 own := by
  obtain ⟨l1, e1⟩ := h.ins; obtain ⟨l2, e2⟩ := h'.ins
  obtain ⟨m1, f1⟩ := h.outs; obtain ⟨m2, f2⟩ := h'.outs
  refine ⟨⟨l1 ++ l2, by rw [e2, e1, List.append_assoc]⟩, ⟨m1 ++ m2, by rw [f2, f1, List.append_assoc]⟩, h.more.trans h'.more, fun a ha hn => ?_⟩
  rw [h'.same a (Nat.lt_of_lt_of_le ha h.more), h.same a ha hn]
  intro hm
  rcases hs a hm with h1 | h1
  · exact hn h1
  · omega

theorem Grows.read {st st' : Store} {own : List Nat} (h : Grows st st' own) (s : Slice) (hw : Within st s) (hn : s.arr ∉ own) :
    st'.read s = st.read s ∧ Within st' s := by
  have := h.same s.arr hw.1 hn
  refine ⟨by rw [Store.read, Store.read, this], Nat.lt_of_lt_of_le hw.1 h.more, by rw [this]; exact hw.2⟩

theorem Grows.input {st st' : Store} {own : List Nat} (h : Grows st st' own) (p : Nat) (hp : p < st.ins.length) : st'.input p = st.input p := by
  obtain ⟨l, e⟩ := h.ins
  simp [Store.input, e, List.getElem?_append_left hp]

theorem Grows.output {st st' : Store} {own : List Nat} (h : Grows st st' own) (p : Nat) (hp : p < st.outs.length) : st'.output p = st.output p := by
  obtain ⟨l, e⟩ := h.outs
  simp [Store.output, e, List.getElem?_append_left hp]

/-- `append`: the result has the old pointers and the new ones; the old slice, seen from elsewhere, has not changed, nor have the objects and the other arrays. -/
theorem append_ok (st : Store) (s : Slice) (ps : List Nat) (spare : Nat) (hw : Within st s) :
    (st.append s ps spare).1.read (st.append s ps spare).2 = st.read s ++ ps ∧ (st.append s ps spare).1.read s = st.read s ∧
    Within (st.append s ps spare).1 (st.append s ps spare).2 ∧ Within (st.append s ps spare).1 s ∧ Grows st (st.append s ps spare).1 [s.arr] ∧
    (st.append s ps spare).1.ins = st.ins ∧ (st.append s ps spare).1.outs = st.outs ∧
    ((st.append s ps spare).2.arr = s.arr ∨ (st.append s ps spare).2.arr = st.arrays.length) := by
  obtain ⟨h1, h2⟩ := hw
  unfold Store.append
  simp only
  split
  · rename_i c
    have e : (st.arrays.set s.arr ((st.arrays.getD s.arr []).take s.len ++ ps ++ (st.arrays.getD s.arr []).drop (s.len + ps.length))).getD s.arr []
        = (st.arrays.getD s.arr []).take s.len ++ ps ++ (st.arrays.getD s.arr []).drop (s.len + ps.length) := by simp [h1]
    have hl : ((st.arrays.getD s.arr []).take s.len).length = s.len := by rw [List.length_take]; omega
    refine ⟨?_, ?_, ⟨by simpa using h1, ?_⟩, ⟨by simpa using h1, ?_⟩, ⟨⟨[], by simp⟩, ⟨[], by simp⟩, by simp, fun a ha hn => ?_⟩, rfl, rfl, Or.inl rfl⟩
    · simp only [Store.read, e]
      rw [List.take_append_of_le_length (by rw [List.length_append, hl]), List.take_of_length_le (by rw [List.length_append, hl])]
    · simp only [Store.read, e]
      rw [List.append_assoc, List.take_append_of_le_length (by rw [hl]), List.take_of_length_le (by rw [hl])]
    · simp only [e, List.length_append, hl]; omega
    · simp only [e, List.length_append, hl]; omega
    · have : s.arr ≠ a := fun e => hn (by simp [e])
      simp [this]
  · have hl : ((st.arrays.getD s.arr []).take s.len).length = s.len := by rw [List.length_take]; omega
    have e : ∀ x : List Nat, (st.arrays ++ [x]).getD s.arr [] = st.arrays.getD s.arr [] := fun x => by
      simp [List.getElem?_append_left h1]
    have e' : ∀ x : List Nat, (st.arrays ++ [x]).getD st.arrays.length [] = x := fun x => by simp
    refine ⟨?_, ?_, ⟨by simp, ?_⟩, ⟨by simp; omega, ?_⟩, ⟨⟨[], by simp⟩, ⟨[], by simp⟩, by simp, fun a ha hn => ?_⟩, rfl, rfl, Or.inr rfl⟩
    · simp only [Store.read, e']
      rw [List.take_append_of_le_length (by rw [List.length_append, hl]), List.take_of_length_le (by rw [List.length_append, hl])]
    · simp only [Store.read, e]
    · simp only [e', List.length_append, hl]; omega
    · simp only [e]; exact h2
    · simp [List.getElem?_append_left ha]

/-! ### One builder -/

/-- The slices of a builder lie in different arrays, and their pointers point to objects. -/
structure Sound (st : Store) (b : PBuilder) : Prop where
  ins : Within st b.body.inputs
  outs : Within st b.body.outputs
  apart : b.body.inputs.arr ≠ b.body.outputs.arr
  inPtrs : ∀ p ∈ st.read b.body.inputs, p < st.ins.length
  outPtrs : ∀ p ∈ st.read b.body.outputs, p < st.outs.length

/-- The arrays a builder uses. -/
def arraysOf (b : PBuilder) : List Nat := [b.body.inputs.arr, b.body.outputs.arr]

/-- Growth elsewhere does not change what is seen through a builder. -/
theorem Grows.deref {st st' : Store} {own : List Nat} (h : Grows st st' own) (b : PBuilder) (hb : Sound st b) (hn : ∀ a ∈ arraysOf b, a ∉ own) :
    st'.deref b = st.deref b ∧ Sound st' b := by
  obtain ⟨r1, w1⟩ := h.read _ hb.ins (hn _ (by simp [arraysOf]))
  obtain ⟨r2, w2⟩ := h.read _ hb.outs (hn _ (by simp [arraysOf]))
  have e1 : st'.inputs b.body.inputs = st.inputs b.body.inputs := by
    rw [Store.inputs, r1]
    exact List.map_congr_left (fun p hp => h.input p (hb.inPtrs p hp))
  have e2 : st'.outputs b.body.outputs = st.outputs b.body.outputs := by
    rw [Store.outputs, r2]
    exact List.map_congr_left (fun p hp => h.output p (hb.outPtrs p hp))
  refine ⟨by simp only [Store.deref, Store.body, e1, e2], w1, w2, hb.apart, fun p hp => ?_, fun p hp => ?_⟩
  · obtain ⟨l, e⟩ := h.ins
    rw [r1] at hp
    have := hb.inPtrs p hp
    rw [e, List.length_append]; omega
  · obtain ⟨l, e⟩ := h.outs
    rw [r2] at hp
    have := hb.outPtrs p hp
    rw [e, List.length_append]; omega

/-- The arrays used after a call are the ones used before, or new. -/
def Own (st : Store) (b b' : PBuilder) : Prop := ∀ a ∈ arraysOf b', a ∈ arraysOf b ∨ st.arrays.length ≤ a

/-- A new object changes nothing. -/
theorem newOutput_grows (st : Store) (o : TxOutput) (own : List Nat) : Grows st (st.newOutput o).1 own :=
  ⟨⟨[], by simp [Store.newOutput]⟩, ⟨[o], rfl⟩, Nat.le_refl _, fun _ _ _ => rfl⟩

theorem newInput_grows (st : Store) (i : TxInput) (own : List Nat) : Grows st (st.newInput i).1 own :=
  ⟨⟨[i], rfl⟩, ⟨[], by simp [Store.newInput]⟩, Nat.le_refl _, fun _ _ _ => rfl⟩

theorem addInputs_ok (st : Store) (b : PBuilder) (hb : Sound st b) (ps : List Nat) (spare : Nat) (hp : ∀ p ∈ ps, p < st.ins.length) :
    Sound (addInputs st b ps spare).1 (addInputs st b ps spare).2 ∧ Grows st (addInputs st b ps spare).1 (arraysOf b) ∧
    Own st b (addInputs st b ps spare).2 ∧
    (addInputs st b ps spare).1.deref (addInputs st b ps spare).2 = AddInputs (st.deref b) (ps.map st.input) := by
  obtain ⟨h1, -, h3, -, h5, h6, h7, h8⟩ := append_ok st b.body.inputs ps spare hb.ins
  obtain ⟨r2, w2⟩ := h5.read _ hb.outs (by simpa using hb.apart.symm)
  have hlt := hb.outs.1
  refine ⟨⟨h3, w2, ?_, fun p hpp => ?_, fun p hpp => ?_⟩, h5.mono (by simp [arraysOf]), ?_, ?_⟩
  · show (st.append b.body.inputs ps spare).2.arr ≠ b.body.outputs.arr
    rcases h8 with h8 | h8 <;> rw [h8]
    · exact hb.apart
    · omega
  · have hpp : p ∈ (st.append b.body.inputs ps spare).1.read (st.append b.body.inputs ps spare).2 := hpp
    show p < (st.append b.body.inputs ps spare).1.ins.length
    rw [h1] at hpp
    rw [h6]
    rcases List.mem_append.1 hpp with h | h
    · exact hb.inPtrs p h
    · exact hp p h
  · have hpp : p ∈ (st.append b.body.inputs ps spare).1.read b.body.outputs := hpp
    show p < (st.append b.body.inputs ps spare).1.outs.length
    rw [r2] at hpp
    rw [h7]
    exact hb.outPtrs p hpp
  · intro a ha
    simp only [arraysOf, addInputs, List.mem_cons, List.not_mem_nil, or_false] at ha ⊢
    rcases ha with ha | ha
    · rcases h8 with h8 | h8
      · exact Or.inl (Or.inl (by rw [ha, h8]))
      · exact Or.inr (by rw [ha, h8])
    · exact Or.inl (Or.inr ha)
  · have i1 : (st.append b.body.inputs ps spare).1.input = st.input := funext fun p => by simp only [Store.input, h6]
    have i2 : (st.append b.body.inputs ps spare).1.output = st.output := funext fun p => by simp only [Store.output, h7]
    simp only [addInputs, Store.deref, Store.body, AddInputs, Store.inputs, Store.outputs, h1, r2, List.map_append, i1, i2]

theorem addOutputs_ok (st : Store) (b : PBuilder) (hb : Sound st b) (ps : List Nat) (spare : Nat) (hp : ∀ p ∈ ps, p < st.outs.length) :
    Sound (addOutputs st b ps spare).1 (addOutputs st b ps spare).2 ∧ Grows st (addOutputs st b ps spare).1 (arraysOf b) ∧
    Own st b (addOutputs st b ps spare).2 ∧
    (addOutputs st b ps spare).1.deref (addOutputs st b ps spare).2 = AddOutputs (st.deref b) (ps.map st.output) := by
  obtain ⟨h1, -, h3, -, h5, h6, h7, h8⟩ := append_ok st b.body.outputs ps spare hb.outs
  obtain ⟨r2, w2⟩ := h5.read _ hb.ins (by simpa using hb.apart)
  have hlt := hb.ins.1
  refine ⟨⟨w2, h3, ?_, fun p hpp => ?_, fun p hpp => ?_⟩, h5.mono (by simp [arraysOf]), ?_, ?_⟩
  · show b.body.inputs.arr ≠ (st.append b.body.outputs ps spare).2.arr
    rcases h8 with h8 | h8 <;> rw [h8]
    · exact hb.apart
    · omega
  · have hpp : p ∈ (st.append b.body.outputs ps spare).1.read b.body.inputs := hpp
    show p < (st.append b.body.outputs ps spare).1.ins.length
    rw [r2] at hpp
    rw [h6]
    exact hb.inPtrs p hpp
  · have hpp : p ∈ (st.append b.body.outputs ps spare).1.read (st.append b.body.outputs ps spare).2 := hpp
    show p < (st.append b.body.outputs ps spare).1.outs.length
    rw [h1] at hpp
    rw [h7]
    rcases List.mem_append.1 hpp with h | h
    · exact hb.outPtrs p h
    · exact hp p h
  · intro a ha
    simp only [arraysOf, addOutputs, List.mem_cons, List.not_mem_nil, or_false] at ha ⊢
    rcases ha with ha | ha
    · exact Or.inl (Or.inl ha)
    · rcases h8 with h8 | h8
      · exact Or.inl (Or.inr (by rw [ha, h8]))
      · exact Or.inr (by rw [ha, h8])
  · have i1 : (st.append b.body.outputs ps spare).1.input = st.input := funext fun p => by simp only [Store.input, h6]
    have i2 : (st.append b.body.outputs ps spare).1.output = st.output := funext fun p => by simp only [Store.output, h7]
    simp only [addOutputs, Store.deref, Store.body, AddOutputs, Store.inputs, Store.outputs, h1, r2, List.map_append, i1, i2]

/-- tx_builder.go:101-108 on slices: what `MinFee` does to the memory, and the outputs of `feeTx`. -/
theorem feeSlices_ok (st : Store) (b : PBuilder) (hb : Sound st b) (spare : Nat) (c : Prop) [Decidable c] (o : TxOutput) (q : Store × Slice)
    (hq : q = if c then (st.newOutput o).1.append b.body.outputs [(st.newOutput o).2] spare else (st, b.body.outputs)) :
    Sound q.1 b ∧ Grows st q.1 (arraysOf b) ∧ q.1.deref b = st.deref b ∧ q.1.inputs b.body.inputs = st.inputs b.body.inputs ∧
    q.1.outputs q.2 = st.outputs b.body.outputs ++ if c then [o] else [] := by
  subst hq
  split
  · obtain ⟨hd, hs⟩ := (newOutput_grows st o []).deref b hb (by simp)
    obtain ⟨h1, h2, h3, h4, h5, h6, h7, h8⟩ := append_ok (st.newOutput o).1 b.body.outputs [(st.newOutput o).2] spare hs.outs
    obtain ⟨r2, w2⟩ := h5.read _ hs.ins (by simpa using hs.apart)
    have i1 : ((st.newOutput o).1.append b.body.outputs [(st.newOutput o).2] spare).1.input = (st.newOutput o).1.input :=
      funext fun p => by simp only [Store.input, h6]
    have i2 : ((st.newOutput o).1.append b.body.outputs [(st.newOutput o).2] spare).1.output = (st.newOutput o).1.output :=
      funext fun p => by simp only [Store.output, h7]
    have hbody : ((st.newOutput o).1.append b.body.outputs [(st.newOutput o).2] spare).1.deref b = st.deref b := by
      rw [← hd]
      simp only [Store.deref, Store.body, Store.inputs, Store.outputs, h2, r2, i1, i2]
    refine ⟨⟨w2, h4, hs.apart, fun p hp => ?_, fun p hp => ?_⟩, ?_, hbody, congrArg (fun b : Builder => b.body.inputs) hbody, ?_⟩
    · rw [r2] at hp; rw [h6]; exact hs.inPtrs p hp
    · rw [h2] at hp; rw [h7]; exact hs.outPtrs p hp
    · exact (newOutput_grows st o (arraysOf b)).trans h5 (by simp [arraysOf])
    · have e : (st.newOutput o).1.outputs b.body.outputs = st.outputs b.body.outputs := congrArg (fun b : Builder => b.body.outputs) hd
      have e' : (st.newOutput o).1.output (st.newOutput o).2 = o := by simp [Store.newOutput, Store.output]
      rw [Store.outputs, h1, List.map_append, i2, ← e, Store.outputs, List.map_singleton, e']
  · exact ⟨hb, Grows.refl _ _, rfl, rfl, by rw [List.append_nil]⟩

/-- `MinFee` writes only behind the end of the slice of outputs, and the placeholder witness. -/
theorem minFee_ok (C : Crypto) (st : Store) (b : PBuilder) (hb : Sound st b) (spare : Nat) :
    Sound (TxHeap.minFee C st b spare).2.1 (TxHeap.minFee C st b spare).2.2 ∧ Grows st (TxHeap.minFee C st b spare).2.1 (arraysOf b) ∧
    Own st b (TxHeap.minFee C st b spare).2.2 ∧
    (TxHeap.minFee C st b spare).2.1.deref (TxHeap.minFee C st b spare).2.2 = (MinFee C (st.deref b)).2 ∧
    (TxHeap.minFee C st b spare).1 = (MinFee C (st.deref b)).1 := by
  obtain ⟨g1, g2, g3, g4, g5⟩ := feeSlices_ok st b hb spare (totalIn (st.inputs b.body.inputs) ≠ totalOut (st.outputs b.body.outputs))
    ⟨innerAddr, totalIn (st.inputs b.body.inputs) - totalOut (st.outputs b.body.outputs) - 200000⟩ _ rfl
  refine ⟨⟨g1.ins, g1.outs, g1.apart, g1.inPtrs, g1.outPtrs⟩, g2, fun a ha => Or.inl ha, ?_, ?_⟩
  · have hbody : _ = _ := congrArg Builder.body g3
    show (Builder.mk _ _ _ _ _ _ _ _ : Builder) = Builder.mk _ _ _ _ _ _ _ _
    congr 1
  · have key : TxBuilder.feeTx C (st.deref b) b.clock =
        ⟨⟨st.inputs b.body.inputs, st.outputs b.body.outputs ++ (if totalIn (st.inputs b.body.inputs) ≠ totalOut (st.outputs b.body.outputs) then
            [⟨innerAddr, totalIn (st.inputs b.body.inputs) - totalOut (st.outputs b.body.outputs) - 200000⟩] else []), b.body.fee, b.body.ttl,
          (afterAux C ⟨st.body { b.body with auxHash := [] }, b.wits.getD b.wit [], true, b.metadata⟩ b.clock).body.auxHash⟩,
         if (b.wits.getD b.wit []).length = 0 then b.wits.getD b.wit [] ++ [dummyWitness] else b.wits.getD b.wit [], true, b.metadata⟩ := by
      have hw : ∀ (t : Tx) (k : Nat), (afterAux C t k).witness = t.witness ∧ (afterAux C t k).valid = t.valid ∧ (afterAux C t k).metadata = t.metadata := by
        intro t k
        unfold afterAux
        cases calcAux C t k <;> exact ⟨rfl, rfl, rfl⟩
      obtain ⟨f1, f2, f3, f4⟩ := afterAux_fields C ⟨st.body { b.body with auxHash := [] }, b.wits.getD b.wit [], true, b.metadata⟩ b.clock
      obtain ⟨f5, f6, f7⟩ := hw ⟨st.body { b.body with auxHash := [] }, b.wits.getD b.wit [], true, b.metadata⟩ b.clock
      show (fun t1 : Tx =>
        let t2 : Tx := if t1.witness.length = 0 then { t1 with witness := t1.witness ++ [dummyWitness] } else t1
        if totalIn (st.inputs b.body.inputs) ≠ totalOut (st.outputs b.body.outputs) then
          { t2 with body := { t2.body with outputs := t2.body.outputs ++ [⟨innerAddr, totalIn (st.inputs b.body.inputs) - totalOut (st.outputs b.body.outputs) - 200000⟩] } }
        else t2) (afterAux C ⟨st.body { b.body with auxHash := [] }, b.wits.getD b.wit [], true, b.metadata⟩ b.clock) = _
      generalize afterAux C ⟨st.body { b.body with auxHash := [] }, b.wits.getD b.wit [], true, b.metadata⟩ b.clock = t1 at *
      obtain ⟨⟨t1i, t1o, t1f, t1t, t1a⟩, t1w, t1v, t1m⟩ := t1
      simp only at f1 f2 f3 f4 f5 f6 f7
      subst f1; subst f2; subst f3; subst f4; subst f5; subst f6; subst f7
      simp only [Store.body]
      clear g1 g2 g3 g4 g5
      by_cases c1 : totalIn (st.inputs b.body.inputs) = totalOut (st.outputs b.body.outputs) <;> by_cases c2 : (b.wits.getD b.wit []).length = 0 <;>
        simp only [c1, c2, ne_eq, not_true_eq_false, not_false_eq_true, if_true, if_false, List.append_nil]
    show feePasses C _ ⟨⟨_, _, _, _, _⟩, _, _, _⟩ _ = feePasses C _ (TxBuilder.feeTx C (st.deref b) b.clock) _
    rw [key]
    exact congrArg₂ (fun i o => feePasses C _ ⟨⟨i, o, _, _, _⟩, _, _, _⟩ _) g4 g5

/-- The call with the pointers replaced by what they point to: a call in the sense of `Tx/Ops.lean`, where builders share nothing. -/
def plain (st : Store) : Call → Op
  | .addInputs ps _ => .addInputs (ps.map st.input)
  | .addOutputs ps _ => .addOutputs (ps.map st.output)
  | .setTTL n => .setTTL n
  | .sign k => .sign k
  | .minFee _ => .minFee
  | .addChange a _ _ => .addChange a
  | .build => .build
  | .setMetadata m => .setMetadata m
  | .bytesOf h => .bytesOf h

/-- The pointers given in a call point to objects. -/
def CallSafe (st : Store) : Call → Prop
  | .addInputs ps _ => ∀ p ∈ ps, p < st.ins.length
  | .addOutputs ps _ => ∀ p ∈ ps, p < st.outs.length
  | _ => True

/-- Only the auxiliary data hash is written. -/
theorem afterAux_body (C : Crypto) (t : Tx) (k : Nat) : (afterAux C t k).body = { t.body with auxHash := (afterAux C t k).body.auxHash } := by
  obtain ⟨f1, f2, f3, f4⟩ := afterAux_fields C t k
  generalize (afterAux C t k).body = x at *
  obtain ⟨xi, xo, xf, xt, xa⟩ := x
  simp only at f1 f2 f3 f4
  rw [f1, f2, f3, f4]

/-- `Build` writes the auxiliary data hash and the witnesses. -/
theorem build_frame (C : Crypto) (b : Builder) :
    (Build C b).2 = { b with body := { b.body with auxHash := (Build C b).2.body.auxHash }, wits := (Build C b).2.wits, wit := (Build C b).2.wit, clock := (Build C b).2.clock } := by
  have h := afterAux_body C (tx b) b.clock
  unfold Build
  generalize (afterAux C (tx b) b.clock).body = x at *
  simp only
  split
  · rw [h]; rfl
  · rw [h]; rfl
  · split
    · rw [h]; rfl
    · rw [h]; rfl
    · rw [h]; rfl

theorem build_deref (C : Crypto) (st : Store) (b : PBuilder) : st.deref (TxHeap.build C st b).2 = (Build C (st.deref b)).2 := by
  rw [build_frame]; rfl

/-- One call on a builder, in memory, is the call on the builder's value; nothing that others can see changes. -/
theorem call_ok (C : Crypto) (st : Store) (b : PBuilder) (hb : Sound st b) (c : Call) (hc : CallSafe st c) :
    Sound (call C st b c).1 (call C st b c).2 ∧ Grows st (call C st b c).1 (arraysOf b) ∧ Own st b (call C st b c).2 ∧
    (call C st b c).1.deref (call C st b c).2 = step C (st.deref b) (plain st c) := by
  have same : ∀ (b' : PBuilder) (x : Builder), b'.body.inputs = b.body.inputs → b'.body.outputs = b.body.outputs → st.deref b' = x →
      Sound st b' ∧ Grows st st (arraysOf b) ∧ Own st b b' ∧ st.deref b' = x := by
    intro b' x e1 e2 e3
    exact ⟨⟨by rw [e1]; exact hb.ins, by rw [e2]; exact hb.outs, by rw [e1, e2]; exact hb.apart, by rw [e1]; exact hb.inPtrs, by rw [e2]; exact hb.outPtrs⟩,
      Grows.refl _ _, fun a ha => Or.inl (by rw [arraysOf, e1, e2] at ha; exact ha), e3⟩
  cases c with
  | addInputs ps spare => exact addInputs_ok st b hb ps spare hc
  | addOutputs ps spare => exact addOutputs_ok st b hb ps spare hc
  | setTTL n => exact same (call C st b (.setTTL n)).2 _ rfl rfl rfl
  | sign k => exact same (call C st b (.sign k)).2 _ rfl rfl rfl
  | setMetadata m => exact same (call C st b (.setMetadata m)).2 _ rfl rfl rfl
  | minFee spare =>
    obtain ⟨h1, h2, h3, h4, -⟩ := minFee_ok C st b hb spare
    exact ⟨h1, h2, h3, h4⟩
  | bytesOf h =>
    refine same (call C st b (.bytesOf h)).2 _ rfl rfl ?_
    show _ = (TxBuilder.bytesOf C (st.deref b) h).2
    have e : (TxBuilder.bytesOf C (st.deref b) h).2 =
      { st.deref b with body := { (st.deref b).body with auxHash := (TxBuilder.bytesOf C (st.deref b) h).2.body.auxHash }, clock := b.clock + 2 } := by
      show Builder.mk (afterAux C (view (st.deref b) h) b.clock).body _ _ _ _ _ _ _ = _
      rw [afterAux_body]; rfl
    rw [e]
    rfl
  | build =>
    exact same (call C st b .build).2 _ rfl rfl (build_deref C st b)
  | addChange addr spare spare' =>
    obtain ⟨h1, h2, h3, h4, h5⟩ := minFee_ok C st b hb spare
    let q := TxHeap.minFee C st b spare
    let b1 : PBuilder := { q.2.2 with body := { q.2.2.body with fee := q.1 } }
    have hs1 : Sound q.2.1 b1 := ⟨h1.ins, h1.outs, h1.apart, h1.inPtrs, h1.outPtrs⟩
    have hd1 : q.2.1.deref b1 = SetFee (MinFee C (st.deref b)).2 (MinFee C (st.deref b)).1 := by
      rw [← h4, ← h5]; rfl
    let o : TxOutput := ⟨addr, totalIn (q.2.1.inputs b1.body.inputs) - totalOut (q.2.1.outputs b1.body.outputs) - b1.body.fee⟩
    obtain ⟨hd2, hs2⟩ := (newOutput_grows q.2.1 o []).deref b1 hs1 (by simp)
    obtain ⟨k1, k2, k3, k4⟩ := addOutputs_ok (q.2.1.newOutput o).1 b1 hs2 [(q.2.1.newOutput o).2] spare' (by simp [Store.newOutput])
    refine ⟨k1, ?_, fun a ha => ?_, ?_⟩
    · exact h2.trans ((newOutput_grows q.2.1 o (arraysOf b1)).trans k2 (fun a ha => Or.inl ha)) h3
    · rcases k3 a ha with h | h
      · exact h3 a h
      · exact Or.inr (h2.more.trans h)
    · have e' : (q.2.1.newOutput o).1.output (q.2.1.newOutput o).2 = o := by simp [Store.newOutput, Store.output]
      refine k4.trans ?_
      rw [hd2, hd1, List.map_singleton, e']
      show AddOutputs _ [o] = AddOutputs _ [_]
      have eo : o = ⟨addr, totalIn (q.2.1.deref b1).body.inputs - totalOut (q.2.1.deref b1).body.outputs - (q.2.1.deref b1).body.fee⟩ := rfl
      rw [eo, hd1]
      rfl

/-! ### Several builders -/

/-- The builders use different arrays. -/
structure WorldOk (w : World) : Prop where
  sound : ∀ (i : Nat) (b : PBuilder), w.builders[i]? = some b → Sound w.store b
  apart : ∀ (i j : Nat) (b b' : PBuilder), w.builders[i]? = some b → w.builders[j]? = some b' → i ≠ j → ∀ a ∈ arraysOf b, a ∉ arraysOf b'

/-- An act of a caller who writes to no object, and uses pointers that it was given. -/
def ActSafe (w : World) : Act → Prop
  | .call _ c => CallSafe w.store c
  | .writeInput _ _ | .writeOutput _ _ => False
  | _ => True

/-- The same for a sequence of acts. -/
def Safe (C : Crypto) (w : World) : List Act → Prop
  | [] => True
  | a :: l => ActSafe w a ∧ Safe C (act C w a) l

/-- The calls made on builder `i`, without pointers. -/
def callsOn (C : Crypto) (i : Nat) (w : World) : List Act → List Op
  | [] => []
  | .call j c :: l => (if j = i then [plain w.store c] else []) ++ callsOn C i (act C w (.call j c)) l
  | a :: l => callsOn C i (act C w a) l

/-- What is seen of builder `i`. -/
def seenAs (w : World) (i : Nat) : Option Builder := (w.builders[i]?).map w.store.deref

theorem Sound.grow {st st' : Store} {own : List Nat} {b : PBuilder} (hb : Sound st b) (h : Grows st st' own) (hn : ∀ a ∈ arraysOf b, a ∉ own) : Sound st' b :=
  (h.deref b hb hn).2

/-- A new builder: as `NewTxBuilder` describes it. -/
theorem newBuilder_ok (st : Store) (p : Protocol) (ks : List Bytes) :
    Sound (newBuilder st p ks).1 (newBuilder st p ks).2 ∧ Grows st (newBuilder st p ks).1 [] ∧
    (newBuilder st p ks).1.deref (newBuilder st p ks).2 = NewTxBuilder p ks ∧ ∀ a ∈ arraysOf (newBuilder st p ks).2, st.arrays.length ≤ a := by
  refine ⟨⟨⟨by simp [newBuilder], by simp [newBuilder]⟩, ⟨by simp [newBuilder], by simp [newBuilder]⟩, by simp [newBuilder], ?_, ?_⟩, ?_, ?_, ?_⟩
  · simp [newBuilder, Store.read]
  · simp [newBuilder, Store.read]
  · exact ⟨⟨[], by simp [newBuilder]⟩, ⟨[], by simp [newBuilder]⟩, by simp [newBuilder], fun a ha _ => by simp [newBuilder, List.getElem?_append_left ha]⟩
  · simp [newBuilder, Store.deref, Store.body, Store.inputs, Store.outputs, Store.read, NewTxBuilder]
  · simp [newBuilder, arraysOf]

/-- One act: the invariant is kept, builders keep what they have, except for the one that is called. -/
theorem act_ok (C : Crypto) (w : World) (hw : WorldOk w) (a : Act) (ha : ActSafe w a) :
    WorldOk (act C w a) ∧ (∃ l, (act C w a).store.ins = w.store.ins ++ l) ∧ (∃ l, (act C w a).store.outs = w.store.outs ++ l) ∧
    ∀ i b, seenAs w i = some b → seenAs (act C w a) i = some (run C b (callsOn C i w [a])) := by
  have grow : ∀ st' : Store, Grows w.store st' [] → WorldOk ⟨st', w.builders⟩ ∧ ∀ i b, seenAs w i = some b → seenAs ⟨st', w.builders⟩ i = some b := by
    intro st' hg
    refine ⟨⟨fun i b hi => (hw.sound i b hi).grow hg (by simp), hw.apart⟩, fun i b hi => ?_⟩
    obtain ⟨pb, h1, h2⟩ := Option.map_eq_some_iff.1 hi
    refine Option.map_eq_some_iff.2 ⟨pb, h1, ?_⟩
    rw [← h2]
    exact (hg.deref pb (hw.sound i pb h1) (by simp)).1
  cases a with
  | writeInput p i => exact absurd ha id
  | writeOutput p o => exact absurd ha id
  | newInput i =>
    have hg := newInput_grows w.store i []
    exact ⟨(grow _ hg).1, hg.ins, hg.outs, (grow _ hg).2⟩
  | newOutput o =>
    have hg := newOutput_grows w.store o []
    exact ⟨(grow _ hg).1, hg.ins, hg.outs, (grow _ hg).2⟩
  | newBuilder p ks =>
    obtain ⟨n1, n2, n3, n4⟩ := newBuilder_ok w.store p ks
    obtain ⟨⟨s1, s2⟩, g2⟩ := grow _ n2
    have hlt : ∀ (i : Nat) (b : PBuilder), w.builders[i]? = some b → ∀ a ∈ arraysOf b, a < w.store.arrays.length := by
      intro i b hi a ha
      have := hw.sound i b hi
      simp only [arraysOf, List.mem_cons, List.not_mem_nil, or_false] at ha
      rcases ha with rfl | rfl
      · exact this.ins.1
      · exact this.outs.1
    have split : ∀ (i : Nat) (b : PBuilder), (w.builders ++ [(newBuilder w.store p ks).2])[i]? = some b →
        w.builders[i]? = some b ∨ (i = w.builders.length ∧ b = (newBuilder w.store p ks).2) := by
      intro i b hi
      rcases Nat.lt_or_ge i w.builders.length with h | h
      · rw [List.getElem?_append_left h] at hi; exact Or.inl hi
      · rw [List.getElem?_append_right h] at hi
        have h0 : i - w.builders.length = 0 := by
          by_contra hne
          rw [List.getElem?_eq_none (by simp; omega)] at hi
          cases hi
        rw [h0] at hi
        exact Or.inr ⟨by omega, by simpa using hi.symm⟩
    refine ⟨⟨fun i b hi => ?_, fun i j b b' hi hj hij => ?_⟩, n2.ins, n2.outs, fun i b hi => ?_⟩
    · rcases split i b hi with h | ⟨-, rfl⟩
      · exact s1 i b h
      · exact n1
    · rcases split i b hi with h | ⟨e, rfl⟩ <;> rcases split j b' hj with h' | ⟨e', rfl⟩
      · exact hw.apart i j b b' h h' hij
      · intro a ha hm
        have := hlt i b h a ha
        have := n4 a hm
        omega
      · intro a ha hm
        have := hlt j b' h' a hm
        have := n4 a ha
        omega
      · omega
    · obtain ⟨pb, h1, -⟩ := Option.map_eq_some_iff.1 (g2 i b hi)
      have h3 : seenAs ⟨(newBuilder w.store p ks).1, w.builders⟩ i = some b := g2 i b hi
      have hl : i < w.builders.length := (List.getElem?_eq_some_iff.1 h1).1
      show Option.map _ ((w.builders ++ [_])[i]?) = some b
      rw [List.getElem?_append_left hl]
      exact h3
  | call j c =>
    cases hj : w.builders[j]? with
    | none =>
      have e : act C w (.call j c) = w := by simp only [act, hj]
      rw [e]
      refine ⟨hw, ⟨[], by simp⟩, ⟨[], by simp⟩, fun i b hi => ?_⟩
      have hij : j ≠ i := by
        rintro rfl
        obtain ⟨pb, h1, -⟩ := Option.map_eq_some_iff.1 hi
        rw [hj] at h1; cases h1
      simp only [callsOn, if_neg hij, List.nil_append]
      exact hi
    | some pb =>
      have e : act C w (.call j c) = ⟨(call C w.store pb c).1, w.builders.set j (call C w.store pb c).2⟩ := by simp only [act, hj]
      rw [e]
      obtain ⟨k1, k2, k3, k4⟩ := call_ok C w.store pb (hw.sound j pb hj) c ha
      have hl : j < w.builders.length := (List.getElem?_eq_some_iff.1 hj).1
      have hget : ∀ i, (w.builders.set j (call C w.store pb c).2)[i]? = if j = i then some (call C w.store pb c).2 else w.builders[i]? := by
        intro i
        rw [List.getElem?_set]
        split
        · rename_i e; subst e; simp
        · rfl
      have hdis : ∀ (i : Nat) (b : PBuilder), w.builders[i]? = some b → j ≠ i → ∀ a ∈ arraysOf b, a ∉ arraysOf (call C w.store pb c).2 := by
        intro i b hi hij a ha hm
        rcases k3 a hm with h | h
        · exact hw.apart j i pb b hj hi hij a h ha
        · have := hw.sound i b hi
          simp only [arraysOf, List.mem_cons, List.not_mem_nil, or_false] at ha
          rcases ha with rfl | rfl
          · exact absurd this.ins.1 (by omega)
          · exact absurd this.outs.1 (by omega)
      refine ⟨⟨fun i b hi => ?_, fun i i' b b' hi hi' hne => ?_⟩, k2.ins, k2.outs, fun i b hi => ?_⟩
      · rw [hget] at hi
        split at hi
        · injection hi with hi; subst hi; exact k1
        · rename_i hij
          exact (hw.sound i b hi).grow k2 (fun a ha => hw.apart i j b pb hi hj (Ne.symm hij) a ha)
      · rw [hget] at hi hi'
        split at hi
        · rename_i e1; subst e1
          injection hi with hi; subst hi
          rw [if_neg hne] at hi'
          intro a ha hm
          exact hdis i' b' hi' hne a hm ha
        · split at hi'
          · injection hi' with hi'; subst hi'
            rename_i h1 h2
            exact hdis i b hi h1
          · exact hw.apart i i' b b' hi hi' hne
      · obtain ⟨pb', h1, h2⟩ := Option.map_eq_some_iff.1 hi
        show Option.map (call C w.store pb c).1.deref ((w.builders.set j (call C w.store pb c).2)[i]?) = _
        rw [hget]
        by_cases hij : j = i
        · subst hij
          rw [hj] at h1
          injection h1 with h1
          subst h1
          rw [if_pos rfl]
          simp only [callsOn, if_true, List.append_nil, run, List.foldl, Option.map]
          rw [k4, h2]
        · rw [if_neg hij, h1]
          simp only [callsOn, if_neg hij, List.nil_append, run, List.foldl, Option.map]
          rw [(k2.deref pb' (hw.sound i pb' h1) (fun a ha => hw.apart i j pb' pb h1 hj (Ne.symm hij) a ha)).1, h2]

theorem run_append (C : Crypto) (b : Builder) (l l' : List Op) : run C b (l ++ l') = run C (run C b l) l' := by simp [run]

theorem callsOn_cons (C : Crypto) (i : Nat) (w : World) (a : Act) (l : List Act) : callsOn C i w (a :: l) = callsOn C i w [a] ++ callsOn C i (act C w a) l := by
  cases a <;> simp [callsOn]

/-- **C97: builders do not disturb each other.** Inputs and outputs may be given to several builders, and the calls on the builders may be interleaved in any way: every builder
is at the end as if only its own calls had been made, with values in place of pointers. The runtime may choose any capacity when it grows a slice. -/
theorem C97_builders_independent (C : Crypto) (l : List Act) : ∀ w : World, WorldOk w → Safe C w l →
    WorldOk (acts C w l) ∧ ∀ i b, seenAs w i = some b → seenAs (acts C w l) i = some (run C b (callsOn C i w l)) := by
  induction l with
  | nil => exact fun w hw _ => ⟨hw, fun i b hi => hi⟩
  | cons a l ih =>
    intro w hw hs
    obtain ⟨h1, -, -, h4⟩ := act_ok C w hw a hs.1
    obtain ⟨k1, k2⟩ := ih _ h1 hs.2
    refine ⟨k1, fun i b hi => ?_⟩
    rw [callsOn_cons, run_append]
    exact k2 i _ (h4 i b hi)

/-- **C97: the caller's objects.** No call writes to an input or output that the caller made. -/
theorem C97_objects_unchanged (C : Crypto) (l : List Act) : ∀ w : World, WorldOk w → Safe C w l →
    (∃ r, (acts C w l).store.ins = w.store.ins ++ r) ∧ ∃ r, (acts C w l).store.outs = w.store.outs ++ r := by
  induction l with
  | nil => exact fun w _ _ => ⟨⟨[], by simp [acts]⟩, ⟨[], by simp [acts]⟩⟩
  | cons a l ih =>
    intro w hw hs
    obtain ⟨h1, ⟨r1, h2⟩, ⟨r2, h3⟩, -⟩ := act_ok C w hw a hs.1
    obtain ⟨⟨r3, k2⟩, ⟨r4, k3⟩⟩ := ih _ h1 hs.2
    exact ⟨⟨r1 ++ r3, by rw [← List.append_assoc, ← h2]; exact k2⟩, ⟨r2 ++ r4, by rw [← List.append_assoc, ← h3]; exact k3⟩⟩

/-- **C97: new objects.** `NewTxInput` and `NewTxOutput` return an object that no one had before, with the values given; whatever is called afterwards, on whatever builders, it keeps
them. -/
theorem C97_new_objects (C : Crypto) (w : World) (hw : WorldOk w) (l : List Act) :
    (∀ i, Safe C w (.newInput i :: l) → w.store.ins.length ≤ (w.store.newInput i).2 ∧ (acts C w (.newInput i :: l)).store.input (w.store.newInput i).2 = i ∧
      (w.store.newInput i).2 < (acts C w (.newInput i :: l)).store.ins.length) ∧
    ∀ o, Safe C w (.newOutput o :: l) → w.store.outs.length ≤ (w.store.newOutput o).2 ∧ (acts C w (.newOutput o :: l)).store.output (w.store.newOutput o).2 = o ∧
      (w.store.newOutput o).2 < (acts C w (.newOutput o :: l)).store.outs.length := by
  constructor
  · intro i hs
    obtain ⟨⟨r, e⟩, -⟩ := C97_objects_unchanged C l _ (act_ok C w hw _ hs.1).1 hs.2
    have e : (acts C w (.newInput i :: l)).store.ins = (w.store.ins ++ [i]) ++ r := e
    exact ⟨Nat.le_refl _, by simp [Store.input, e, Store.newInput], by simp [e, Store.newInput]⟩
  · intro o hs
    obtain ⟨-, r, e⟩ := C97_objects_unchanged C l _ (act_ok C w hw _ hs.1).1 hs.2
    have e : (acts C w (.newOutput o :: l)).store.outs = (w.store.outs ++ [o]) ++ r := e
    exact ⟨Nat.le_refl _, by simp [Store.output, e, Store.newOutput], by simp [e, Store.newOutput]⟩

/-- The memory of a program that has not called the package. -/
def emptyWorld : World := ⟨⟨[], [], []⟩, []⟩

theorem emptyWorld_ok : WorldOk emptyWorld := ⟨fun i b h => by simp [emptyWorld] at h, fun i j b b' h => by simp [emptyWorld] at h⟩

theorem safe_append (C : Crypto) (l l' : List Act) : ∀ w : World, Safe C w (l ++ l') → Safe C w l ∧ Safe C (acts C w l) l' := by
  induction l with
  | nil => exact fun w h => ⟨trivial, h⟩
  | cons a l ih => exact fun w h => ⟨⟨h.1, (ih _ h.2).1⟩, (ih _ h.2).2⟩

/-- **C97: every builder of a program.** Whatever a program does before and after it makes a builder, what `Build`, `MinFee` and `Bytes` return for that builder is what they return for
a builder alone, with the same calls. -/
theorem C97_as_if_alone (C : Crypto) (p : Protocol) (ks : List Bytes) (before after : List Act) (w : World) (i : Nat)
    (hw : w = acts C emptyWorld before) (hi : i = w.builders.length) (hs : Safe C emptyWorld (before ++ .newBuilder p ks :: after)) :
    ∃ (b : Builder) (pb : PBuilder) (st : Store), b = run C (NewTxBuilder p ks) (callsOn C i (act C w (.newBuilder p ks)) after) ∧
      (acts C w (.newBuilder p ks :: after)).store = st ∧ (acts C w (.newBuilder p ks :: after)).builders[i]? = some pb ∧
      st.deref pb = b ∧ (TxHeap.build C st pb).1 = (Build C b).1 ∧ (∀ h, (TxHeap.bytesOf C st pb h).1 = (TxBuilder.bytesOf C b h).1) ∧
      ∀ spare, (TxHeap.minFee C st pb spare).1 = (MinFee C b).1 := by
  obtain ⟨h1, h2⟩ := safe_append C before _ _ hs
  rw [← hw] at h2
  have hok : WorldOk w := by rw [hw]; exact (C97_builders_independent C before _ emptyWorld_ok h1).1
  have hok' := (act_ok C w hok (.newBuilder p ks) h2.1).1
  have hnew : seenAs (act C w (.newBuilder p ks)) i = some (NewTxBuilder p ks) := by
    show Option.map (newBuilder w.store p ks).1.deref ((w.builders ++ [_])[i]?) = _
    rw [hi, List.getElem?_concat_length]
    exact congrArg some (newBuilder_ok w.store p ks).2.2.1
  obtain ⟨k1, k2⟩ := C97_builders_independent C after _ hok' h2.2
  obtain ⟨pb, g1, g2⟩ := Option.map_eq_some_iff.1 (k2 i _ hnew)
  refine ⟨_, pb, _, rfl, rfl, g1, g2, ?_, fun h => ?_, fun spare => ?_⟩
  · rw [← g2]; rfl
  · rw [← g2]; rfl
  · rw [← g2]; exact (minFee_ok C _ pb (k1.sound i pb g1) spare).2.2.2.2

/-! ### A caller who writes to the objects -/

/-- What a caller sees who writes to an output. -/
theorem write_output (st : Store) (p : Nat) (o : TxOutput) (hp : p < st.outs.length) (q : Nat) :
    ({ st with outs := st.outs.set p o } : Store).output q = if p = q then o else st.output q := by
  simp only [Store.output, List.getD_eq_getElem?_getD, List.getElem?_set]
  split
  · rename_i e; subst e; simp
  · rfl

/-- **C97: writing to an output after `Build`.** The transaction holds the caller's object: its bytes now have the new output, and the signatures are for another body. -/
theorem C97_write_after_build (C : Crypto) (hH : ∀ m, (C.blake256 m).length = 32) (st : Store) (b b' : PBuilder) (h : Handle)
    (e : TxHeap.build C st b = (.ok h, b')) (p : Nat) (o : TxOutput) (hp : p < st.outs.length) (hm : p ∈ st.read b.body.outputs)
    (hne : (Addr.bytes o.address, o.amount) ≠ (Addr.bytes (st.output p).address, (st.output p).amount)) (bs : Bytes)
    (hb : BodyFits (st.body b'.body)) (ho : AddressFits o.address)
    (eb : (TxHeap.bytesOf C { st with outs := st.outs.set p o } b' h).1 = .ok bs) :
    ∃ signed submitted rest x, bs = 0x84 :: (submitted ++ rest) ∧ Cbor.parseFirst (submitted ++ rest) = some (x, rest) ∧ signed ≠ submitted ∧
      All2 (fun (w : VKeyWitness) key => C.publicKey key = .ok w.vkey ∧ C.sign key (C.blake256 signed) = .ok w.signature)
        (view (st.deref b') h).witness b.xprvs := by
  have eB : Build C (st.deref b) = (.ok h, st.deref b') := by
    have e1 : (Build C (st.deref b)).1 = .ok h := congrArg Prod.fst e
    have e2 : st.deref b' = (Build C (st.deref b)).2 := by rw [← build_deref, e]
    rw [e2, ← e1]
  obtain ⟨body, bb, ws, h1, h2, h3, h4, h5⟩ := build_ok C _ _ h eB
  have hbody : st.body b'.body = body := congrArg Builder.body h5
  have hv := view_build (st.deref b) (st.deref b') h body ws h4 h5
  obtain ⟨c, hc, eb⟩ := bind_ok eb
  obtain ⟨bb', m, g1, g2, g3⟩ := marshalTx_parts _ _ _ eb
  have g1 : marshalBody c = .ok bb' := g1
  obtain ⟨f1, f2, -, -⟩ := calcAux_outputs C _ _ _ hc
  have hread : ({ st with outs := st.outs.set p o } : Store).read b'.body.outputs = st.read b.body.outputs := by
    have : b'.body.outputs = b.body.outputs := by have := congrArg (fun q => q.2.body.outputs) e; exact this.symm
    rw [this]; rfl
  have f2 : c.outputs = (st.read b.body.outputs).map ({ st with outs := st.outs.set p o } : Store).output := by
    rw [f2, ← hread]; rfl
  have houts : body.outputs = (st.read b.body.outputs).map st.output := by
    rw [← hbody]
    have : b'.body.outputs = b.body.outputs := by have := congrArg (fun q => q.2.body.outputs) e; exact this.symm
    show st.outputs b'.body.outputs = _
    rw [this]; rfl
  have f1 : c.inputs = body.inputs := by rw [f1, ← hbody]; rfl
  have hfb : BodyFits body := by rw [← hbody]; exact hb
  have hfc : BodyFits c := by
    refine ⟨by rw [f1]; exact hfb.inputs, ?_, by rw [f1]; exact hfb.hashes, fun x hx => ?_, ?_⟩
    · have := hfb.outputs
      rw [houts, List.length_map] at this
      rw [f2, List.length_map]; exact this
    · rw [f2] at hx
      obtain ⟨q, hq, rfl⟩ := List.mem_map.1 hx
      rw [write_output st p o hp q]
      split
      · exact ho
      · exact hfb.addrs _ (by rw [houts]; exact List.mem_map_of_mem hq)
    · unfold calcAux at hc
      split at hc
      · injection hc with hc; rw [← hc]; exact hb.aux
      · split at hc
        · injection hc with hc; rw [← hc]; simp only [hH]; decide
        · cases hc
        · cases hc
  have hee := body_enc _ hfb _ h2
  have hec := body_enc _ hfc _ g1
  refine ⟨bb, bb', marshalWitness (view (({ st with outs := st.outs.set p o } : Store).deref b') h).witness ++ (encBool h.valid ++ m), _,
    by rw [g3]; simp only [List.append_assoc]; rfl, hec.parseFirst _, ?_, ?_⟩
  · intro heq
    subst heq
    have hi := (hee.inj hec [] [] rfl).1
    have ho2 := (bodyItem_inj _ _ hi).2.1
    rw [houts, f2, List.map_map, List.map_map] at ho2
    have := List.map_inj_left.1 ho2 p hm
    simp only [Function.comp_apply, write_output st p o hp p, if_true] at this
    exact hne this.symm
  · rw [hv]
    exact witnessesOf_ok C _ _ _ h3

theorem sumOut_le (f g : Nat → TxOutput) (l : List Nat) (h : ∀ q ∈ l, (f q).amount.toNat ≤ (g q).amount.toNat) : sumOut (l.map f) ≤ sumOut (l.map g) := by
  induction l with
  | nil => exact Nat.le_refl _
  | cons q l ih =>
    have h1 := h q (by simp)
    have h2 := ih (fun q hq => h q (by simp [hq]))
    simp only [sumOut, List.map_cons, List.sum_cons] at h2 ⊢
    omega

theorem sumOut_lt (f g : Nat → TxOutput) (l : List Nat) (h : ∀ q ∈ l, (f q).amount.toNat ≤ (g q).amount.toNat) (p : Nat) (hp : p ∈ l)
    (hlt : (f p).amount.toNat < (g p).amount.toNat) : sumOut (l.map f) < sumOut (l.map g) := by
  induction l with
  | nil => cases hp
  | cons q l ih =>
    have h1 := h q (by simp)
    have h2 := sumOut_le f g l (fun q hq => h q (by simp [hq]))
    rcases List.mem_cons.1 hp with rfl | hp
    · simp only [sumOut, List.map_cons, List.sum_cons] at h2 ⊢
      omega
    · have h3 := ih (fun q hq => h q (by simp [hq])) hp
      simp only [sumOut, List.map_cons, List.sum_cons] at h3 ⊢
      omega

/-- Another amount in an output, another sum. -/
theorem sumOut_write (st : Store) (p : Nat) (o : TxOutput) (hp : p < st.outs.length) (l : List Nat) (hm : p ∈ l) (hne : o.amount ≠ (st.output p).amount) :
    sumOut (l.map ({ st with outs := st.outs.set p o } : Store).output) ≠ sumOut (l.map st.output) := by
  have hw := write_output st p o hp
  have hne' : o.amount.toNat ≠ (st.output p).amount.toNat := fun e => hne (UInt64.toNat_inj.1 e)
  rcases Nat.lt_or_gt_of_ne hne' with h | h
  · refine Nat.ne_of_lt (sumOut_lt _ _ l (fun q _ => ?_) p hm (by rw [hw, if_pos rfl]; exact h))
    rw [hw]; split
    · rename_i e; subst e; omega
    · exact Nat.le_refl _
  · refine Nat.ne_of_gt (sumOut_lt _ _ l (fun q _ => ?_) p hm (by rw [hw, if_pos rfl]; exact h))
    rw [hw]; split
    · rename_i e; subst e; omega
    · exact Nat.le_refl _

/-- **C97: writing another amount to an output before `Build`.** If the transaction balanced, as it does after `AddChangeIfNeeded`, it does so no more, and the ledger rejects it. -/
theorem C97_write_before_build_rejected (H : Hashes) (hH : H.Ok) (blake224 blake256 : Bytes → Bytes) (h256 : ∀ m, (blake256 m).length = 32)
    (st : Store) (b : PBuilder) (p : Nat) (o : TxOutput) (hp : p < st.outs.length) (hm : p ∈ st.read b.body.outputs) (hne : o.amount ≠ (st.output p).amount)
    (hbal : sumIn (st.inputs b.body.inputs) = sumOut (st.outputs b.body.outputs) + b.body.fee.toNat) (u : UTxO) (hu : StatedRight u (st.inputs b.body.inputs))
    (e : Env) (bs : Bytes) (hf : BuilderFits (({ st with outs := st.outs.set p o } : Store).deref b))
    (hy : Finishes (packageCrypto H blake256) (({ st with outs := st.outs.set p o } : Store).deref b) bs) :
    ¬ Ledger.Valid (ledgerCrypto H blake224 blake256) e u bs := by
  intro hval
  have h := finish_balance H hH blake224 blake256 h256 _ u e bs hf hy hu hval
  have h : sumIn (st.inputs b.body.inputs) = sumOut ((st.read b.body.outputs).map ({ st with outs := st.outs.set p o } : Store).output) + b.body.fee.toNat := h
  have h2 : sumIn (st.inputs b.body.inputs) = sumOut ((st.read b.body.outputs).map st.output) + b.body.fee.toNat := hbal
  exact sumOut_write st p o hp _ hm hne (by omega)

/-- The amounts of inputs are not written. -/
theorem marshalBody_refs (b : TxBody) (l : List TxInput) (h : l.map (fun i => (i.txHash, i.index)) = b.inputs.map (fun i => (i.txHash, i.index))) :
    marshalBody { b with inputs := l } = marshalBody b := by
  have e : ∀ l : List TxInput, l.map marshalInput = (l.map (fun i => (i.txHash, i.index))).map (fun x => marshalInput ⟨x.1, x.2, 0⟩) := by
    intro l; rw [List.map_map]; rfl
  unfold marshalBody
  simp only
  rw [e l, e b.inputs, h]

theorem calcAux_refs (C : Crypto) (t : Tx) (l : List TxInput) (k : Nat) :
    calcAux C { t with body := { t.body with inputs := l } } k = (calcAux C t k >>= fun b => pure { b with inputs := l }) := by
  unfold calcAux
  cases t.metadata with
  | none => rfl
  | some m =>
    simp only
    cases m.enc k <;> rfl

/-- **C97: writing another amount to an input.** It changes neither the bytes nor the transaction id (but before `AddChangeIfNeeded` it changes the change: C78). -/
theorem C97_write_input_amount (C : Crypto) (st : Store) (b : PBuilder) (p : Nat) (i : TxInput) (hp : p < st.ins.length)
    (h1 : i.txHash = (st.input p).txHash) (h2 : i.index = (st.input p).index) (h : Handle) (k : Nat) :
    bytes C (view (({ st with ins := st.ins.set p i } : Store).deref b) h) k = bytes C (view (st.deref b) h) k ∧
    Transaction.hash C (tx (({ st with ins := st.ins.set p i } : Store).deref b)) k = Transaction.hash C (tx (st.deref b)) k := by
  have hrefs : (({ st with ins := st.ins.set p i } : Store).inputs b.body.inputs).map (fun i => (i.txHash, i.index)) =
      (st.inputs b.body.inputs).map (fun i => (i.txHash, i.index)) := by
    simp only [Store.inputs, List.map_map]
    refine List.map_congr_left (fun q _ => ?_)
    simp only [Function.comp_apply, Store.input, List.getD_eq_getElem?_getD, List.getElem?_set]
    by_cases e : p = q
    · subst e
      simp only [Store.input, List.getD_eq_getElem?_getD] at h1 h2
      simp [hp, h1, h2]
    · simp [e]
  have key : ∀ (t : Tx), t.body.inputs = st.inputs b.body.inputs →
      bytes C { t with body := { t.body with inputs := ({ st with ins := st.ins.set p i } : Store).inputs b.body.inputs } } k = bytes C t k ∧
      Transaction.hash C { t with body := { t.body with inputs := ({ st with ins := st.ins.set p i } : Store).inputs b.body.inputs } } k = Transaction.hash C t k := by
    intro t ht
    unfold Transaction.bytes Transaction.hash
    rw [calcAux_refs]
    cases hc : calcAux C t k with
    | err m => exact ⟨rfl, rfl⟩
    | panic => exact ⟨rfl, rfl⟩
    | ok c =>
      have hm := marshalBody_refs c (({ st with ins := st.ins.set p i } : Store).inputs b.body.inputs) (by rw [hrefs, ← ht, (calcAux_outputs C t k c hc).1])
      constructor
      · show marshalTx _ _ = marshalTx _ _
        unfold marshalTx
        simp only
        rw [hm]
      · show (marshalBody { c with inputs := _ } >>= _) = (marshalBody c >>= _)
        rw [hm]
  exact ⟨(key (view (st.deref b) h) rfl).1, (key (tx (st.deref b)) rfl).2⟩

/-! ### Examples -/

/-- Two builders made from the same input and output, calls interleaved: a case for `C97_builders_independent`, `C97_objects_unchanged`, `C97_new_objects` and `C97_as_if_alone`. -/
def sharingActs (p : Protocol) : List Act :=
  [.newInput ⟨List.replicate 32 7, 0, 10000000⟩, .newOutput ⟨sampleAddr, 5000000⟩, .newBuilder p [], .newBuilder p [],
    .call 0 (.addInputs [0] 3), .call 1 (.addInputs [0] 0), .call 0 (.addOutputs [0] 2), .call 1 (.addOutputs [0] 0), .call 0 (.minFee 0),
    .call 1 (.minFee 0), .call 1 (.addChange sampleAddr 0 0), .call 0 (.setTTL 5), .call 0 (.addChange sampleAddr 1 1)]

theorem sharing_safe (C : Crypto) (p : Protocol) : Safe C emptyWorld (sharingActs p) := by
  have m : ∀ (n : Nat) (q : Nat), q ∈ [0] → q < n + 1 := fun n q h => by rw [List.mem_singleton.1 h]; omega
  exact ⟨trivial, trivial, trivial, trivial, m 0, m 0, m 0, m 0, trivial, trivial, trivial, trivial, trivial, trivial⟩

example (C : Crypto) (p : Protocol) : Safe C emptyWorld (sharingActs p) ∧ WorldOk emptyWorld ∧
    callsOn C 0 emptyWorld (sharingActs p) = [.addInputs [⟨List.replicate 32 7, 0, 10000000⟩], .addOutputs [⟨sampleAddr, 5000000⟩], .minFee, .setTTL 5, .addChange sampleAddr] :=
  ⟨sharing_safe C p, emptyWorld_ok, rfl⟩

/-- The transaction of `order_change` with its input and outputs in memory. -/
def sharingStore : Store := ⟨[⟨List.replicate 32 7, 0, 10000000⟩], [⟨.base MainNet goldenPayment goldenStake, 5000000⟩, ⟨sampleAddr, 4832123⟩], [[0], [0, 1, 0]]⟩

def sharingBuilder : PBuilder := ⟨⟨⟨0, 1⟩, ⟨1, 2⟩, 167877, 0, []⟩, [[]], 0, true, none, [sampleKey], ⟨44, 155381, 16384, 1000000⟩, 0⟩

/-- C97, the theorems about writing: after `Build`, before `Build`, to an input. -/
example (H : Hashes) (hH : H.Ok) (blake256 : Bytes → Bytes) :
    ∃ (h : Handle) (b' : PBuilder) (bs bs' : Bytes), TxHeap.build (packageCrypto H blake256) sharingStore sharingBuilder = (.ok h, b') ∧
      0 ∈ sharingStore.read sharingBuilder.body.outputs ∧ BodyFits (sharingStore.body b'.body) ∧
      (TxHeap.bytesOf (packageCrypto H blake256) { sharingStore with outs := sharingStore.outs.set 0 ⟨sampleAddr, 7000000⟩ } b' h).1 = .ok bs ∧
      StatedRight orderUTxO (sharingStore.inputs sharingBuilder.body.inputs) ∧
      sumIn (sharingStore.inputs sharingBuilder.body.inputs) = sumOut (sharingStore.outputs sharingBuilder.body.outputs) + sharingBuilder.body.fee.toNat ∧
      BuilderFits (({ sharingStore with outs := sharingStore.outs.set 0 ⟨sampleAddr, 7000000⟩ } : Store).deref sharingBuilder) ∧
      Finishes (packageCrypto H blake256) (({ sharingStore with outs := sharingStore.outs.set 0 ⟨sampleAddr, 7000000⟩ } : Store).deref sharingBuilder) bs' := by
  have f1 := order_ok H hH blake256 (sharingStore.deref sharingBuilder) _ rfl (by decide +kernel) (by decide) (by decide) (by
    intro o ho
    have ho : o ∈ [⟨.base MainNet goldenPayment goldenStake, 5000000⟩, ⟨sampleAddr, 4832123⟩] := ho
    simp only [List.mem_cons, List.not_mem_nil, or_false] at ho
    rcases ho with rfl | rfl
    · exact .inl rfl
    · exact .inr rfl) rfl rfl (.inl rfl)
  have f2 := order_ok H hH blake256 (({ sharingStore with outs := sharingStore.outs.set 0 ⟨sampleAddr, 7000000⟩ } : Store).deref sharingBuilder) _ rfl (by decide +kernel) (by decide) (by decide) (by
    intro o ho
    have ho : o ∈ [⟨sampleAddr, 7000000⟩, ⟨sampleAddr, 4832123⟩] := ho
    simp only [List.mem_cons, List.not_mem_nil, or_false] at ho
    rcases ho with rfl | rfl
    · exact .inr rfl
    · exact .inr rfl) rfl rfl (.inl rfl)
  obtain ⟨hf2, bs', hy2⟩ := f2
  obtain ⟨hf1, bs1, h, B', k, e1, -⟩ := f1
  have hh : TxHeap.build (packageCrypto H blake256) sharingStore sharingBuilder = (.ok h, (TxHeap.build (packageCrypto H blake256) sharingStore sharingBuilder).2) :=
    Prod.ext (show (Build (packageCrypto H blake256) (sharingStore.deref sharingBuilder)).1 = .ok h by rw [e1]) rfl
  obtain ⟨body, bb, ws, g1, g2, g3, g4, g5⟩ := build_ok _ _ _ h e1
  injection g1 with g1
  have hx : (TxHeap.build (packageCrypto H blake256) sharingStore sharingBuilder).2.body.auxHash = [] := by
    show (Build (packageCrypto H blake256) (sharingStore.deref sharingBuilder)).2.body.auxHash = []
    rw [e1, g5, ← g1]; rfl
  have hbody : (TxHeap.build (packageCrypto H blake256) sharingStore sharingBuilder).2.body = sharingBuilder.body := by
    show PBody.mk _ _ _ _ (TxHeap.build (packageCrypto H blake256) sharingStore sharingBuilder).2.body.auxHash = _
    rw [hx]; rfl
  have hbs : ∃ bs, (TxHeap.bytesOf (packageCrypto H blake256) { sharingStore with outs := sharingStore.outs.set 0 ⟨sampleAddr, 7000000⟩ }
      (TxHeap.build (packageCrypto H blake256) sharingStore sharingBuilder).2 h).1 = .ok bs := by
    show ∃ bs, bytes _ ⟨({ sharingStore with outs := sharingStore.outs.set 0 ⟨sampleAddr, 7000000⟩ } : Store).body
      (TxHeap.build (packageCrypto H blake256) sharingStore sharingBuilder).2.body, _, h.valid, h.metadata⟩ _ = .ok bs
    rw [g4, hbody]
    exact ⟨_, rfl⟩
  obtain ⟨bs, hbs⟩ := hbs
  refine ⟨h, _, bs, bs', hh, by decide, ?_, hbs, ⟨?_, by decide⟩, by decide, hf2, hy2⟩
  · rw [hbody]
    exact ⟨hf1.inputs, hf1.outputs, hf1.ids, hf1.addrs, hf1.aux⟩
  · intro i hi
    have hi : i ∈ [⟨List.replicate 32 7, 0, 10000000⟩] := hi
    rw [List.mem_singleton.1 hi]
    exact ⟨[], rfl⟩

end Cardano.Props
