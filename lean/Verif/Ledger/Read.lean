import Verif.Ledger.Spec
import Verif.Tx.Lemmas
/-!
# What the ledger's reader finds in the bytes written by the package
-/
set_option autoImplicit false

namespace Cardano.Ledger
open Cbor TxSpec Transaction

theorem all_map_eq {α β : Type} (f : Item → Option β) (g : α → Item) (h : α → β) (l : List α) (hx : ∀ x ∈ l, f (g x) = some (h x)) :
    all f (l.map g) = some (l.map h) := by
  induction l with
  | nil => rfl
  | cons a l ih =>
    rw [List.map_cons, all, hx a (by simp), ih (fun x hm => hx x (by simp [hm]))]
    rfl

theorem all_map_of {α β : Type} (f : Item → Option β) (g : α → Item) (h : α → β) (hx : ∀ x y, f (g x) = some y → y = h x) (l : List α) (r : List β)
    (e : all f (l.map g) = some r) : r = l.map h ∧ ∀ x ∈ l, f (g x) = some (h x) := by
  induction l generalizing r with
  | nil => injection e with e; subst e; exact ⟨rfl, nofun⟩
  | cons a l ih =>
    rw [List.map_cons, all] at e
    cases e1 : f (g a) with
    | none => rw [e1] at e; cases e
    | some y =>
      cases e2 : all f (l.map g) with
      | none => rw [e1, e2] at e; cases e
      | some ys =>
        rw [e1, e2] at e
        injection e with e
        obtain ⟨i1, i2⟩ := ih ys e2
        have hy := hx a y e1
        subst e
        refine ⟨by rw [i1, hy]; rfl, fun x hm => ?_⟩
        rcases List.mem_cons.1 hm with rfl | hm
        · rw [e1, hy]
        · exact i2 x hm

/-- The reference of an input, address and amount of an output. -/
def refOf (i : TxInput) : Ref := (i.txHash, i.index.toNat)
def outOf (o : TxOutput) : Out := (Addr.bytes o.address, o.amount.toNat)
def witOf (w : VKeyWitness) : Bytes × Bytes := (w.vkey, w.signature)

theorem readInput_item (i : TxInput) (h : i.txHash.length = 32) : readInput (inputItem i) = some (refOf i) := by
  have := UInt16.toNat_lt i.index
  unfold inputItem readInput
  dsimp only
  rw [if_pos ⟨h, this⟩]; rfl

theorem readInput_of (i : TxInput) (r : Ref) (h : readInput (inputItem i) = some r) : r = refOf i ∧ i.txHash.length = 32 := by
  unfold inputItem readInput at h
  dsimp only at h
  split at h
  · rename_i c; injection h with h; exact ⟨h.symm, c.1⟩
  · cases h

theorem addressItem_bytes (a : Address) (h : OutputAddress (Addr.bytes a)) : addressItem a = .bytes (Addr.bytes a) := by
  cases a with
  | byron b =>
    exfalso
    obtain ⟨h, rest, e, hc⟩ := h
    have e : Byron.bytes b = h :: rest := e
    have : ∃ r, Byron.bytes b = 0x82 :: r := by
      unfold Byron.bytes encArray
      dsimp only
      simp only [List.length_cons, List.length_nil]
      rw [show encHead 0x80 (UInt64.ofNat (0 + 1 + 1)) = [0x82] by decide]
      exact ⟨_, rfl⟩
    obtain ⟨r, hr⟩ := this
    rw [hr] at e
    injection e with e
    subst e
    revert hc
    have : (0x82 : UInt8).toNat / 16 = 8 := by decide
    rw [this]
    omega
  | base _ _ _ => rfl
  | enterprise _ _ => rfl
  | pointer _ _ _ => rfl
  | reward _ _ => rfl

theorem readOutput_item (o : TxOutput) (h : OutputAddress (Addr.bytes o.address)) : readOutput (outputItem o) = some (outOf o) := by
  have := UInt64.toNat_lt o.amount
  unfold outputItem
  rw [addressItem_bytes _ h]
  unfold readOutput
  dsimp only
  rw [if_pos ⟨h, this⟩]; rfl

theorem readOutput_of (o : TxOutput) (r : Out) (h : readOutput (outputItem o) = some r) : r = outOf o ∧ OutputAddress (Addr.bytes o.address) := by
  have key : ∀ x, addressItem o.address = .bytes x → x = Addr.bytes o.address := by
    intro x hx
    cases ha : o.address with
    | byron b => rw [ha] at hx; cases hx
    | base _ _ _ => rw [ha] at hx; injection hx with hx; exact hx.symm
    | enterprise _ _ => rw [ha] at hx; injection hx with hx; exact hx.symm
    | pointer _ _ _ => rw [ha] at hx; injection hx with hx; exact hx.symm
    | reward _ _ => rw [ha] at hx; injection hx with hx; exact hx.symm
  unfold outputItem at h
  cases ha : addressItem o.address with
  | bytes x =>
    rw [ha] at h
    unfold readOutput at h
    dsimp only at h
    split at h
    · rename_i hc
      injection h with h
      have := key x ha
      subst this
      exact ⟨h.symm, hc.1⟩
    · cases h
  | _ => rw [ha] at h; cases h

theorem readWitness_item (w : VKeyWitness) (h : w.vkey.length = 32 ∧ w.signature.length = 64) :
    readWitness (.array [.bytes w.vkey, .bytes w.signature]) = some (witOf w) := by
  unfold readWitness
  dsimp only
  rw [if_pos h]; rfl

theorem readWitness_of (w : VKeyWitness) (r : Bytes × Bytes) (h : readWitness (.array [.bytes w.vkey, .bytes w.signature]) = some r) : r = witOf w := by
  unfold readWitness at h
  dsimp only at h
  split at h
  · injection h with h; exact h.symm
  · cases h

/-- Fields of the body. -/
def bodyPairs (b : TxBody) : List (Nat × Item) :=
  [(0, .array (b.inputs.map inputItem)), (1, .array (b.outputs.map outputItem)), (2, .uint b.fee.toNat)] ++
    (if b.ttl = 0 then [] else [(3, .uint b.ttl.toNat)]) ++ (if b.auxHash = [] then [] else [(7, .bytes b.auxHash)])

theorem fieldsOf_body (b : TxBody) : fieldsOf [0, 1, 2, 3, 7] (bodyItem b) = some (bodyPairs b) := by
  unfold bodyItem bodyPairs fieldsOf
  by_cases c1 : b.ttl = 0 <;> by_cases c2 : b.auxHash = [] <;> simp [c1, c2, pairs]

theorem fieldsOf_witness (ws : List VKeyWitness) : fieldsOf [0] (witnessItem ws) =
    some (if ws = [] then [] else [(0, .array (ws.map fun w => .array [.bytes w.vkey, .bytes w.signature]))]) := by
  unfold witnessItem fieldsOf
  by_cases c1 : ws = [] <;> simp [c1, pairs]

/-- The transaction the reader finds. -/
def seen (b : TxBody) (ws : List VKeyWitness) (body : Bytes) (aux : Option Bytes) (size : Nat) : TxView :=
  ⟨b.inputs.map refOf, b.outputs.map outOf, b.fee.toNat, if b.ttl = 0 then none else some b.ttl.toNat,
    if b.auxHash = [] then none else some b.auxHash, ws.map witOf, body, aux, size⟩

theorem lookup_body (b : TxBody) :
    (bodyPairs b).lookup 0 = some (.array (b.inputs.map inputItem)) ∧ (bodyPairs b).lookup 1 = some (.array (b.outputs.map outputItem)) ∧
    (bodyPairs b).lookup 2 = some (.uint b.fee.toNat) ∧
    (bodyPairs b).lookup 3 = (if b.ttl = 0 then none else some (.uint b.ttl.toNat)) ∧
    (bodyPairs b).lookup 7 = (if b.auxHash = [] then none else some (.bytes b.auxHash)) := by
  unfold bodyPairs
  by_cases c1 : b.ttl = 0 <;> by_cases c2 : b.auxHash = [] <;> simp [c1, c2, List.lookup]

/-- The reader succeeds. -/
theorem assemble_ok (size : Nat) (b : TxBody) (ws : List VKeyWitness) (x : Item) (body auxB : Bytes) (aux : Option Bytes)
    (hi : ∀ i ∈ b.inputs, i.txHash.length = 32) (ho : ∀ o ∈ b.outputs, OutputAddress (Addr.bytes o.address))
    (hw : ∀ w ∈ ws, w.vkey.length = 32 ∧ w.signature.length = 64) (hx : readAux x auxB = some aux) :
    assemble size (bodyItem b) (witnessItem ws) (.simple 21) x body auxB = some (seen b ws body aux size) := by
  obtain ⟨l0, l1, l2, l3, l7⟩ := lookup_body b
  have e3 : optField (bodyPairs b) 3 number = some (if b.ttl = 0 then none else some b.ttl.toNat) := by
    unfold optField; rw [l3]
    by_cases c : b.ttl = 0 <;> simp [c, number]
  have e7 : optField (bodyPairs b) 7 byteString = some (if b.auxHash = [] then none else some b.auxHash) := by
    unfold optField; rw [l7]
    by_cases c : b.auxHash = [] <;> simp [c, byteString]
  unfold assemble
  rw [fieldsOf_body, fieldsOf_witness]
  simp only [Option.bind_eq_bind, Option.bind_some]
  unfold field
  rw [l0, l1, l2, e3, e7, hx]
  simp only [Option.bind_some, elements, number]
  rw [all_map_eq readInput inputItem refOf _ fun i hm => readInput_item i (hi i hm),
    all_map_eq readOutput outputItem outOf _ fun o hm => readOutput_item o (ho o hm)]
  simp only [Option.bind_some]
  by_cases c : ws = []
  · subst c
    rfl
  · rw [if_neg c]
    have hwa : all readWitness (ws.map fun w => .array [.bytes w.vkey, .bytes w.signature]) = some (ws.map witOf) :=
      all_map_eq readWitness _ witOf _ fun w hm => readWitness_item w (hw w hm)
    simp only [optField, List.lookup, beq_self_eq_true, Option.bind_some]
    rw [hwa]
    rfl

/-- If the reader succeeds, this is what it finds. -/
theorem assemble_of (size : Nat) (b : TxBody) (ws : List VKeyWitness) (v x : Item) (body auxB : Bytes) (t : TxView)
    (h : assemble size (bodyItem b) (witnessItem ws) v x body auxB = some t) :
    ∃ aux, readAux x auxB = some aux ∧ t = seen b ws body aux size ∧ v = .simple 21 ∧ (∀ o ∈ b.outputs, OutputAddress (Addr.bytes o.address)) ∧
      ∀ i ∈ b.inputs, i.txHash.length = 32 := by
  obtain ⟨l0, l1, l2, l3, l7⟩ := lookup_body b
  have e3 : optField (bodyPairs b) 3 number = some (if b.ttl = 0 then none else some b.ttl.toNat) := by
    unfold optField; rw [l3]
    by_cases c : b.ttl = 0 <;> simp [c, number]
  have e7 : optField (bodyPairs b) 7 byteString = some (if b.auxHash = [] then none else some b.auxHash) := by
    unfold optField; rw [l7]
    by_cases c : b.auxHash = [] <;> simp [c, byteString]
  unfold assemble at h
  rw [fieldsOf_body, fieldsOf_witness] at h
  simp only [Option.bind_eq_bind, Option.bind_some] at h
  unfold field at h
  rw [l0, l1, l2, e3, e7] at h
  simp only [Option.bind_some, elements, number] at h
  cases h1 : all readInput (b.inputs.map inputItem) with
  | none => rw [h1] at h; cases h
  | some ins =>
    rw [h1] at h
    obtain ⟨rfl, hi⟩ := all_map_of readInput inputItem refOf (fun i r e => (readInput_of i r e).1) _ _ h1
    cases h2 : all readOutput (b.outputs.map outputItem) with
    | none => rw [h2] at h; cases h
    | some outs =>
      rw [h2] at h
      obtain ⟨rfl, ho⟩ := all_map_of readOutput outputItem outOf (fun o y e => (readOutput_of o y e).1) _ _ h2
      simp only [Option.bind_some] at h
      have hw : ∃ wits, optField (if ws = [] then [] else [(0, Item.array (ws.map fun w => .array [.bytes w.vkey, .bytes w.signature]))]) 0
          (fun i => (elements i).bind (all readWitness)) = some wits ∧ wits.getD [] = ws.map witOf := by
        cases hwo : optField (if ws = [] then [] else [(0, Item.array (ws.map fun w => .array [.bytes w.vkey, .bytes w.signature]))]) 0
          (fun i => (elements i).bind (all readWitness)) with
        | none => exfalso; simp only [elements] at hwo; rw [hwo] at h; cases h
        | some wits =>
          refine ⟨wits, rfl, ?_⟩
          by_cases c : ws = []
          · subst c; injection hwo with hwo; subst hwo; rfl
          · rw [if_neg c] at hwo
            simp only [optField, List.lookup, beq_self_eq_true, elements, Option.bind_some] at hwo
            cases h3 : all readWitness (ws.map fun w => .array [.bytes w.vkey, .bytes w.signature]) with
            | none => rw [h3] at hwo; cases hwo
            | some r =>
              rw [h3] at hwo
              injection hwo with hwo
              subst hwo
              exact (all_map_of readWitness _ witOf readWitness_of _ _ h3).1
      obtain ⟨wits, hw1, hw2⟩ := hw
      simp only [elements] at hw1
      rw [hw1] at h
      simp only [Option.bind_some] at h
      cases hx : readAux x auxB with
      | none => rw [hx] at h; cases h
      | some aux =>
        rw [hx] at h
        simp only [Option.bind_some] at h
        split at h
        · injection h with h
          refine ⟨aux, rfl, ?_, rfl, fun o hm => (readOutput_of o _ (ho o hm)).2, fun i hm => (readInput_of i _ (hi i hm)).2⟩
          rw [← h, hw2]; rfl
        · cases h

/-- The reader on the bytes of a transaction. -/
theorem read_bytes (b : TxBody) (ws : List VKeyWitness) (valid : Bool) (body m : Bytes) (x : Item) (hb : BodyFits b) (hw : WitnessFits ws)
    (h1 : marshalBody b = .ok body) (hx : parse m = some x) :
    let bs := 0x84 :: (body ++ marshalWitness ws ++ encBool valid ++ m)
    read bs = assemble bs.length (bodyItem b) (witnessItem ws) (.simple (if valid then 21 else 20)) x body m := by
  have eb := body_enc b hb body h1
  have ew := witness_enc ws hw
  have ev := enc_bool valid
  have em : parseFirst m = some (x, []) := by
    unfold parse at hx
    split at hx
    · injection hx with hx; subst hx; assumption
    · cases hx
  dsimp only
  unfold read
  dsimp only
  rw [if_pos rfl, List.append_assoc, List.append_assoc, eb.parseFirst]
  simp only [Option.bind_eq_bind, Option.bind_some]
  rw [ew.parseFirst]
  simp only [Option.bind_some]
  rw [ev.parseFirst]
  simp only [Option.bind_some]
  rw [em]
  simp

end Cardano.Ledger
