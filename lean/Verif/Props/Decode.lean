import Verif.Tx.Decode
import Verif.Props.Tx
/-!
# Property C126: decoding the bytes of a transaction
-/
set_option autoImplicit false

namespace Cardano.Props
open Cbor TxSpec Transaction TxDecode

theorem elemsInto_value {α β : Type} (f : Item → Dec α) (g : β → Item) (l : List β) : (elemsInto f (l.map g)).value = l.map fun b => (f (g b)).value := by
  induction l with
  | nil => rfl
  | cons b l ih => simp only [List.map_cons, elemsInto, ih]

theorem elemsInto_none {α β : Type} (f : Item → Dec α) (g : β → Item) (l : List β) (h : ∀ b ∈ l, (f (g b)).err = none) : (elemsInto f (l.map g)).err = none := by
  induction l with
  | nil => rfl
  | cons b l ih =>
    simp only [List.map_cons, elemsInto]
    rw [h b List.mem_cons_self, ih fun b hb => h b (List.mem_cons_of_mem _ hb)]
    rfl

theorem elemsInto_some {α β : Type} (f : Item → Dec α) (g : β → Item) (l : List β) (hl : l ≠ []) (h : ∀ b, (f (g b)).err ≠ none) : (elemsInto f (l.map g)).err ≠ none := by
  cases l with
  | nil => exact absurd rfl hl
  | cons b l =>
    simp only [List.map_cons, elemsInto]
    have := h b
    cases e : (f (g b)).err with
    | none => exact absurd e this
    | some _ => exact nofun

theorem inputInto_item (i : TxInput) : ptrInto inputInto ⟨[], 0, 0⟩ none (inputItem i) = ⟨some ⟨[], 0, 0⟩, typeError⟩ := rfl

theorem addressItem_notNil (a : Address) : isNil (addressItem a) = false := by
  cases a <;> rfl

theorem uintInto_uint (bits old n : Nat) (h : n < 2 ^ bits) : uintInto bits old (.uint n) = ⟨n, none⟩ := by
  show (if n < 2 ^ bits then _ else _) = _
  rw [if_pos h]

theorem outputInto_item (o : TxOutput) : ptrInto outputInto ⟨none, 0⟩ none (outputItem o) = ⟨some ⟨none, o.amount⟩, typeError⟩ := by
  show (let d := outputInto ⟨none, 0⟩ (outputItem o); (⟨some d.value, d.err⟩ : Dec (Option OutputVar))) = _
  have : outputInto ⟨none, 0⟩ (outputItem o) = ⟨⟨none, o.amount⟩, typeError⟩ := by
    show (let da := addressInto (addressItem o.address); let dn := uintInto 64 0 (.uint o.amount.toNat); (⟨⟨da.value, UInt64.ofNat dn.value⟩, firstErr da.err dn.err⟩ : Dec OutputVar)) = _
    rw [uintInto_uint 64 0 _ (UInt64.toNat_lt _)]
    unfold addressInto
    rw [addressItem_notNil]
    simp [firstErr, typeError]
  rw [this]

/-- What is in a body variable after decoding what was written for a body. -/
def bodySeen (b : TxBody) : BodyVar :=
  ⟨b.inputs.map fun _ => some ⟨[], 0, 0⟩, b.outputs.map fun o => some ⟨none, o.amount⟩, b.fee, b.ttl, b.auxHash⟩

theorem firstErr_none (a b : Option String) : firstErr a b = none ↔ a = none ∧ b = none := by
  cases a <;> simp [firstErr]

theorem bodyInto_item (b : TxBody) :
    (bodyInto zeroBody (bodyItem b)).value = bodySeen b ∧ ((bodyInto zeroBody (bodyItem b)).err = none ↔ b.inputs = [] ∧ b.outputs = []) := by
  have hi : sliceInto (ptrInto inputInto ⟨[], 0, 0⟩ none) [] (.array (b.inputs.map inputItem)) = elemsInto (ptrInto inputInto ⟨[], 0, 0⟩ none) (b.inputs.map inputItem) := rfl
  have ho : sliceInto (ptrInto outputInto ⟨none, 0⟩ none) [] (.array (b.outputs.map outputItem)) =
      elemsInto (ptrInto outputInto ⟨none, 0⟩ none) (b.outputs.map outputItem) := rfl
  have vi := elemsInto_value (ptrInto inputInto ⟨[], 0, 0⟩ none) inputItem b.inputs
  have vo := elemsInto_value (ptrInto outputInto ⟨none, 0⟩ none) outputItem b.outputs
  simp only [inputInto_item] at vi
  simp only [outputInto_item] at vo
  have ei : (elemsInto (ptrInto inputInto ⟨[], 0, 0⟩ none) (b.inputs.map inputItem)).err = none ↔ b.inputs = [] := by
    constructor
    · intro h
      by_cases c : b.inputs = []
      · exact c
      · exact absurd h (elemsInto_some _ _ _ c fun i => by rw [inputInto_item]; exact nofun)
    · intro h; rw [h]; rfl
  have eo : (elemsInto (ptrInto outputInto ⟨none, 0⟩ none) (b.outputs.map outputItem)).err = none ↔ b.outputs = [] := by
    constructor
    · intro h
      by_cases c : b.outputs = []
      · exact c
      · exact absurd h (elemsInto_some _ _ _ c fun i => by rw [outputInto_item]; exact nofun)
    · intro h; rw [h]; rfl
  have hb : bodyInto zeroBody (bodyItem b) =
      let d0 := sliceInto (ptrInto inputInto ⟨[], 0, 0⟩ none) [] (.array (b.inputs.map inputItem))
      let d1 := sliceInto (ptrInto outputInto ⟨none, 0⟩ none) [] (.array (b.outputs.map outputItem))
      ⟨⟨d0.value, d1.value, b.fee, b.ttl, b.auxHash⟩, firstErr d0.err d1.err⟩ := by
    have h2 : uintInto 64 0 (.uint b.fee.toNat) = ⟨b.fee.toNat, none⟩ := uintInto_uint 64 0 _ (UInt64.toNat_lt _)
    have h3 : uintInto 32 0 (.uint b.ttl.toNat) = ⟨b.ttl.toNat, none⟩ := uintInto_uint 32 0 _ (UInt32.toNat_lt _)
    have h7 : bytesInto [] (.bytes b.auxHash) = ⟨b.auxHash, none⟩ := rfl
    unfold bodyInto structInto bodyItem
    by_cases c3 : b.ttl = 0 <;> by_cases c7 : b.auxHash = [] <;>
      simp [isNil, c3, c7, fieldsInto, setBodyField, zeroBody, h2, h3, h7, firstErr]
    all_goals
      generalize (sliceInto (ptrInto inputInto _ none) [] (Item.array (List.map inputItem b.inputs))).err = x
      generalize (sliceInto (ptrInto outputInto _ none) [] (Item.array (List.map outputItem b.outputs))).err = y
      cases x <;> cases y <;> rfl
  rw [hb]
  simp only [hi, ho]
  exact ⟨by rw [vi, vo]; rfl, by rw [firstErr_none, ei, eo]⟩

theorem vkeyInto_item (w : VKeyWitness) : ptrInto vkeyInto ⟨[], []⟩ none (.array [.bytes w.vkey, .bytes w.signature]) = ⟨some w, none⟩ := rfl

theorem witnessInto_item (ws : List VKeyWitness) : witnessInto [] (witnessItem ws) = ⟨ws.map some, none⟩ := by
  unfold witnessItem
  by_cases c : ws = []
  · rw [c]; rfl
  · rw [if_neg c]
    have h : witnessInto [] (.map [.uint 0, .array (ws.map fun w => .array [.bytes w.vkey, .bytes w.signature])]) =
        let d := elemsInto (ptrInto vkeyInto ⟨[], []⟩ none) (ws.map fun w => .array [.bytes w.vkey, .bytes w.signature])
        ⟨d.value, firstErr d.err none⟩ := rfl
    rw [h]
    simp only [elemsInto_value, vkeyInto_item]
    rw [elemsInto_none _ _ _ fun w _ => by rw [vkeyInto_item]]
    rfl

/-- The two ways to start: `var t tx.Tx` and `t := tx.NewTx()`. -/
def FreshTx (v : TxVar) : Prop := v = zeroTx ∨ v = newTx

theorem txInto_item (any : Item → Option String) (v : TxVar) (hv : FreshTx v) (b : TxBody) (ws : List VKeyWitness) (valid : Bool) (m : Item) :
    let d := txInto any v (txItem b ws valid m)
    d.value = ⟨some (bodySeen b), some (ws.map some), valid, if isNil m then none else some m⟩ ∧
      (d.err = none ↔ (b.inputs = [] ∧ b.outputs = []) ∧ (isNil m = true ∨ any m = none)) := by
  obtain ⟨h1, h2⟩ := bodyInto_item b
  have hw := witnessInto_item ws
  have hb : ∀ old, old = none ∨ old = some zeroBody → ptrInto bodyInto zeroBody old (bodyItem b) = ⟨some (bodyInto zeroBody (bodyItem b)).value, (bodyInto zeroBody (bodyItem b)).err⟩ := by
    rintro old (rfl | rfl) <;> rfl
  have hw' : ∀ old, old = none ∨ old = some [] → ptrInto witnessInto [] old (witnessItem ws) = ⟨some (ws.map some), none⟩ := by
    have : (⟨some (witnessInto [] (witnessItem ws)).value, (witnessInto [] (witnessItem ws)).err⟩ : Dec (Option WitnessVar)) = ⟨some (ws.map some), none⟩ := by rw [hw]
    rintro old (rfl | rfl) <;> exact this
  have hvd : ∀ old, boolInto old (.simple (if valid then 21 else 20)) = ⟨valid, none⟩ := by
    intro old; cases valid <;> rfl
  have key : ∀ (ob : Option BodyVar) (ow : Option WitnessVar) (ov : Bool), (ob = none ∨ ob = some zeroBody) → (ow = none ∨ ow = some []) →
      let d := txInto any ⟨ob, ow, ov, none⟩ (txItem b ws valid m)
      d.value = ⟨some (bodySeen b), some (ws.map some), valid, if isNil m then none else some m⟩ ∧
        (d.err = none ↔ (b.inputs = [] ∧ b.outputs = []) ∧ (isNil m = true ∨ any m = none)) := by
    intro ob ow ov e1 e2
    have : txInto any ⟨ob, ow, ov, none⟩ (txItem b ws valid m) =
        let db := ptrInto bodyInto zeroBody ob (bodyItem b)
        let dw := ptrInto witnessInto [] ow (witnessItem ws)
        let dv := boolInto ov (.simple (if valid then 21 else 20))
        let dm : Dec (Option Item) := if isNil m then ⟨none, none⟩ else ⟨some m, any m⟩
        ⟨⟨db.value, dw.value, dv.value, dm.value⟩, firstErr db.err (firstErr dw.err (firstErr dv.err dm.err))⟩ := rfl
    rw [this, hb ob e1, hw' ow e2, hvd ov]
    dsimp only
    rw [firstErr_none, h1, h2]
    cases hm : isNil m
    · simp [firstErr]
    · simp [firstErr]
  rcases hv with rfl | rfl
  · exact key none none false (.inl rfl) (.inl rfl)
  · exact key (some zeroBody) (some []) true (.inr rfl) (.inr rfl)

/-- **C126 is false.** The bytes of a transaction with an input or an output are refused: `cbor.Unmarshal` returns an error, whatever the limits of the library are and
whatever it thinks of the metadata. So no transaction that can be submitted is ever decoded. -/
theorem C126_refused (C : Crypto) (hH : ∀ m, (C.blake256 m).length = 32) (t : Tx) (k : Nat) (bs : Bytes) (hb : BodyFits t.body) (hw : WitnessFits t.witness)
    (h : Transaction.bytes C t k = .ok bs) (hmd : ∀ md, t.metadata = some md → ∀ b, md.enc (k + 1) = .ok b → ∃ x, parse b = some x)
    (hne : t.body.inputs ≠ [] ∨ t.body.outputs ≠ []) (limits : Item → Bool) (any : Item → Option String) (v : TxVar) (hv : FreshTx v) :
    (unmarshal limits (txInto any) v bs).err ≠ none := by
  obtain ⟨aux, x, hp, -⟩ := C17_bytes_wellformed C hH t k bs hb hw h hmd
  unfold unmarshal
  rw [hp]
  dsimp only
  split
  · intro e
    have := ((txInto_item any v hv _ _ _ x).2.1 e).1
    rcases hne with hne | hne
    · exact hne this.1
    · exact hne this.2
  · exact nofun

/-- **C126 (partial).** What is in the variable after that: fee, time to live, auxiliary data hash (as in the bytes), witnesses, the flag, the amounts of the outputs. Missing:
inputs, which are all empty, and addresses, which are all nil; and then there is an error. Without inputs and outputs there is none, unless from the metadata. -/
theorem C126_filled_partial (C : Crypto) (hH : ∀ m, (C.blake256 m).length = 32) (t : Tx) (k : Nat) (bs : Bytes) (hb : BodyFits t.body) (hw : WitnessFits t.witness)
    (h : Transaction.bytes C t k = .ok bs) (hmd : ∀ md, t.metadata = some md → ∀ b, md.enc (k + 1) = .ok b → ∃ x, parse b = some x)
    (limits : Item → Bool) (hl : ∀ x, parse bs = some x → limits x = true) (any : Item → Option String) (v : TxVar) (hv : FreshTx v) :
    ∃ b, (unmarshal limits (txInto any) v bs).value.body = some b ∧
      (unmarshal limits (txInto any) v bs).value.witness = some (t.witness.map some) ∧ (unmarshal limits (txInto any) v bs).value.valid = t.valid ∧
      b.fee = t.body.fee ∧ b.ttl = t.body.ttl ∧ (t.metadata = none → b.auxHash = t.body.auxHash) ∧
      (∀ md, t.metadata = some md → ∃ m x, md.enc k = .ok m ∧ b.auxHash = C.blake256 m ∧ (md.enc (k + 1) = .ok m → parse m = some x ∧
        (isNil x = false → (unmarshal limits (txInto any) v bs).value.metadata = some x))) ∧
      b.outputs = t.body.outputs.map (fun o => some ⟨none, o.amount⟩) ∧ b.inputs = t.body.inputs.map (fun _ => some ⟨[], 0, 0⟩) ∧
      (t.metadata = none → (unmarshal limits (txInto any) v bs).value.metadata = none ∧
        ((unmarshal limits (txInto any) v bs).err = none ↔ t.body.inputs = [] ∧ t.body.outputs = [])) := by
  obtain ⟨aux, x, hp, hn, hs⟩ := C17_bytes_wellformed C hH t k bs hb hw h hmd
  have hu : unmarshal limits (txInto any) v bs = txInto any v (txItem { t.body with auxHash := aux } t.witness t.valid x) := by
    unfold unmarshal
    rw [hp]
    exact if_pos (hl _ hp)
  obtain ⟨e1, e2⟩ := txInto_item any v hv { t.body with auxHash := aux } t.witness t.valid x
  rw [hu, e1, e2]
  refine ⟨_, rfl, rfl, rfl, rfl, rfl, fun h0 => (hn h0).2, ?_, rfl, rfl, ?_⟩
  · intro md hm
    obtain ⟨b1, b2, g1, g2, g3, g4⟩ := hs md hm
    refine ⟨b1, x, g1, g3, fun g => ?_⟩
    rw [g2] at g
    have g := Res.ok.inj g
    subst g
    exact ⟨g4, fun hx => by dsimp only; rw [hx]; rfl⟩
  · intro h0
    rw [(hn h0).1]
    exact ⟨rfl, by simp [isNil]⟩

/-- **C126: what can be decoded.** The witness set alone, whatever is in it. -/
theorem C126_witness_set (ws : List VKeyWitness) (hw : WitnessFits ws) (limits : Item → Bool) (hl : ∀ x, parse (marshalWitness ws) = some x → limits x = true) :
    unmarshal limits witnessInto [] (marshalWitness ws) = ⟨ws.map some, none⟩ := by
  have hp := (witness_enc ws hw).parse
  unfold unmarshal
  rw [hp]
  dsimp only
  rw [if_pos (hl _ hp)]
  exact witnessInto_item ws

/-! ### Examples -/

/-- A transaction with an input and an output is written, and meets the hypotheses. -/
example : ∃ (C : Crypto) (t : Tx) (bs : Bytes), (∀ m, (C.blake256 m).length = 32) ∧ t.body.inputs ≠ [] ∧ t.metadata = none ∧ BodyFits t.body ∧ WitnessFits t.witness ∧
    Transaction.bytes C t 0 = .ok bs := by
  refine ⟨⟨fun _ => List.replicate 32 0, fun _ => .ok [], fun _ _ => .ok []⟩,
    ⟨⟨[⟨List.replicate 32 7, 0, 5⟩], [⟨.enterprise MainNet ⟨0, List.replicate 28 1⟩, 5⟩], 3, 9, []⟩, [⟨List.replicate 32 1, List.replicate 64 2⟩], true, none⟩, _, fun _ => rfl, nofun, rfl, ?_, ?_, rfl⟩
  · refine ⟨(by decide : 1 < 2 ^ 63), (by decide : 1 < 2 ^ 63), ?_, ?_, (by decide : 0 < 2 ^ 63)⟩
    · intro i hi; rw [List.mem_singleton.1 hi]; exact (by decide : 32 < 2 ^ 63)
    · intro o ho; rw [List.mem_singleton.1 ho]; exact (by decide +kernel : (Addr.bytes (.enterprise MainNet ⟨0, List.replicate 28 1⟩)).length < 2 ^ 63)
  · refine ⟨(by decide : 1 < 2 ^ 63), ?_⟩
    intro w hw; rw [List.mem_singleton.1 hw]; exact ⟨(by decide : 32 < 2 ^ 63), (by decide : 64 < 2 ^ 63)⟩

end Cardano.Props
