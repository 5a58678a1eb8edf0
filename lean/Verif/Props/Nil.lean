import Verif.Tx.Nil
import Verif.Props.Missing
/-!
# Property C129: transactions with nil pointers or nil slices in them
-/
set_option autoImplicit false

namespace Cardano.Props
open Cbor TxSpec Addr
open Ledger (read readInput readOutput readWitness assemble fieldsOf)

/-! ### Specification -/

/-- The pointers that the fee calculation follows: one of them is nil. -/
def FeeNeedsNil (t : Nil.Tx) : Prop :=
  t.body = none ∨ t.witness = none ∨
    ∃ b, t.body = some b ∧ ((∃ l, b.inputs = some l ∧ none ∈ l) ∨ ∃ l, b.outputs = some l ∧ none ∈ l)

/-- Something is nil that a transaction must have: a part, a list, an element of a list, or a part of an element. -/
def HasNil (t : Nil.Tx) : Prop :=
  t.body = none ∨ t.witness = none ∨
    (∃ ws, t.witness = some ws ∧ ∃ w ∈ ws, ∀ v, w = some v → v.vkey = none ∨ v.signature = none) ∨
    ∃ b, t.body = some b ∧
      (b.inputs = none ∨ b.outputs = none ∨ (∃ l, b.inputs = some l ∧ ∃ i ∈ l, ∀ j, i = some j → j.txHash = none) ∨
        ∃ l, b.outputs = some l ∧ ∃ o ∈ l, ∀ p, o = some p → p.address = none)

/-- Lengths are Go lengths. -/
structure GoSizedNil (t : Nil.Tx) : Prop where
  inputs : ∀ b l, t.body = some b → b.inputs = some l → l.length < 2 ^ 63 ∧ ∀ i h, some i ∈ l → i.txHash = some h → h.length < 2 ^ 63
  outputs : ∀ b l, t.body = some b → b.outputs = some l → l.length < 2 ^ 63 ∧ ∀ o a, some o ∈ l → o.address = some a → AddressFits a
  aux : ∀ b, t.body = some b → b.auxHash.length < 2 ^ 63
  witness : ∀ ws, t.witness = some ws → ws.length < 2 ^ 63 ∧
    ∀ w h, some w ∈ ws → w.vkey = some h ∨ w.signature = some h → h.length < 2 ^ 63

/-! ### The fee -/

theorem nil_totalIn (l : List (Option Nil.Input)) (a : UInt64) : (Nil.totalIn l a = .panic ↔ none ∈ l) ∧ ∀ m, Nil.totalIn l a ≠ .err m := by
  induction l generalizing a with
  | nil => simp [Nil.totalIn]
  | cons i l ih =>
    cases i with
    | none => simp [Nil.totalIn]
    | some i =>
      simp only [Nil.totalIn, List.mem_cons, reduceCtorEq, false_or]
      exact ih _

theorem nil_totalOut (l : List (Option Missing.Output)) (a : UInt64) : (Nil.totalOut l a = .panic ↔ none ∈ l) ∧ ∀ m, Nil.totalOut l a ≠ .err m := by
  induction l generalizing a with
  | nil => simp [Nil.totalOut]
  | cons i l ih =>
    cases i with
    | none => simp [Nil.totalOut]
    | some i =>
      simp only [Nil.totalOut, List.mem_cons, reduceCtorEq, false_or]
      exact ih _

theorem nil_outputs_calm (l : List (Option Missing.Output)) : Transaction.collect (l.map Nil.marshalOutput) ≠ .panic := by
  induction l with
  | nil => simp [Transaction.collect]
  | cons o l ih =>
    intro h
    simp only [List.map_cons, Transaction.collect] at h
    have ho : Nil.marshalOutput o ≠ .panic := by
      cases o with
      | none => simp [Nil.marshalOutput]
      | some o =>
        obtain ⟨a, n⟩ := o
        cases a with
        | none => simp [Nil.marshalOutput, Missing.marshalOutput, Missing.marshalAddress]
        | some a => cases a <;> simp [Nil.marshalOutput, Missing.marshalOutput, Missing.marshalAddress, Transaction.marshalAddress]
    cases e : Nil.marshalOutput o with
    | panic => exact ho e
    | err m => rw [e] at h; cases h
    | ok x =>
      rw [e] at h
      simp only [Res.ok_bind] at h
      cases hc : Transaction.collect (l.map Nil.marshalOutput) with
      | panic => exact ih hc
      | err m => rw [hc] at h; cases h
      | ok bs => rw [hc] at h; cases h

theorem nil_body_calm (b : Option Nil.Body) : Nil.marshalBody b ≠ .panic := by
  cases b with
  | none => simp [Nil.marshalBody]
  | some b =>
    intro h
    unfold Nil.marshalBody at h
    cases ho : b.outputs with
    | none => simp [ho, Nil.marshalOutputs] at h
    | some l =>
      simp only [ho, Nil.marshalOutputs] at h
      cases hc : Transaction.collect (l.map Nil.marshalOutput) with
      | panic => exact nil_outputs_calm l hc
      | err m => rw [hc] at h; cases h
      | ok bs => rw [hc] at h; cases h

theorem nil_calcAux_calm (C : Crypto) (t : Nil.Tx) (h : Nil.Calm t.metadata) (hb : t.body ≠ none) (k : Nat) :
    Nil.calcAux C t k ≠ .panic ∧ ∀ t', Nil.calcAux C t k = .ok t' → t'.body ≠ none ∧ t'.metadata = t.metadata := by
  unfold Nil.calcAux
  cases hm : t.metadata with
  | none => exact ⟨by simp, fun t' e => by injection e with e; subst e; exact ⟨hb, hm⟩⟩
  | some m =>
    have := h m hm k
    dsimp only
    cases e : m.enc k with
    | panic => exact absurd e this
    | err s => exact ⟨by simp, fun t' e => by cases e⟩
    | ok x =>
      cases hbd : t.body with
      | none => exact absurd hbd hb
      | some b => exact ⟨by simp, fun t' e => by injection e with e; subst e; simp⟩

theorem nil_fee_calm (C : Crypto) (l : LinearFee) (t : Nil.Tx) (h : Nil.Calm t.metadata) (hb : t.body ≠ none) (k : Nat) : Nil.fee C l t k ≠ .panic := by
  intro e
  obtain ⟨h1, h2⟩ := nil_calcAux_calm C t h hb k
  unfold Nil.fee at e
  cases hc : Nil.calcAux C t k with
  | panic => exact h1 hc
  | err m => rw [hc] at e; cases e
  | ok t' =>
    rw [hc] at e
    simp only [Res.ok_bind, Nil.marshalTx] at e
    cases hbd : Nil.marshalBody t'.body with
    | panic => exact nil_body_calm _ hbd
    | err m => rw [hbd] at e; cases e
    | ok bb =>
      rw [hbd] at e
      simp only [Res.ok_bind] at e
      cases hm : Transaction.marshalMetadata t'.metadata (k + 1) with
      | panic =>
        unfold Transaction.marshalMetadata at hm
        split at hm
        · cases hm
        · next m e1 => exact h m (by rw [← (h2 t' hc).2, e1]) _ hm
      | err m => rw [hm] at e; cases e
      | ok m => rw [hm] at e; cases e

theorem orElse_total {α : Type} (d : α) (r : Res α) (h : r ≠ .panic) : ∃ a, Nil.orElse d r = .ok a ∧ (r = .ok a ∨ a = d) := by
  cases r with
  | ok a => exact ⟨a, rfl, .inl rfl⟩
  | err m => exact ⟨d, rfl, .inr rfl⟩
  | panic => exact absurd rfl h

theorem nil_setFee (t : Nil.Tx) (f : UInt64) (hb : t.body ≠ none) : ∃ t', Nil.SetFee t f = .ok t' ∧ t'.body ≠ none ∧ t'.metadata = t.metadata := by
  unfold Nil.SetFee
  cases h : t.body with
  | none => exact absurd h hb
  | some b => exact ⟨_, rfl, by simp, rfl⟩

theorem nil_feePasses_calm (C : Crypto) (l : LinearFee) (t : Nil.Tx) (h : Nil.Calm t.metadata) (hb : t.body ≠ none) (k : Nat) :
    ∃ f, Nil.feePasses C l t k = .ok f := by
  obtain ⟨f1, e1, -⟩ := orElse_total 0 _ (nil_fee_calm C l t h hb k)
  obtain ⟨c1, c2⟩ := nil_calcAux_calm C t h hb k
  obtain ⟨t', e2, h2⟩ := orElse_total t _ c1
  have h3 : t'.body ≠ none ∧ t'.metadata = t.metadata := by
    rcases h2 with h2 | rfl
    · exact c2 t' h2
    · exact ⟨hb, rfl⟩
  obtain ⟨t'', e3, h4, h5⟩ := nil_setFee t' f1 h3.1
  obtain ⟨f2, e4, -⟩ := orElse_total 0 _ (nil_fee_calm C l t'' (by rw [h5, h3.2]; exact h) h4 (k + 2))
  refine ⟨f2, ?_⟩
  unfold Nil.feePasses
  rw [e1, Res.ok_bind, e2, Res.ok_bind, e3, Res.ok_bind, e4]

theorem nil_withChange (t : Nil.Tx) (x y : UInt64) (hb : t.body ≠ none) : ∃ t', Nil.withChange t x y = .ok t' ∧ t'.body ≠ none ∧ t'.metadata = t.metadata := by
  unfold Nil.withChange
  split
  · unfold Nil.AddOutputs
    cases h : t.body with
    | none => exact absurd h hb
    | some b => exact ⟨_, rfl, by simp, rfl⟩
  · exact ⟨t, rfl, hb, rfl⟩

theorem mem_getD {α : Type} (o : Option (List α)) (x : α) : x ∈ o.getD [] ↔ ∃ l, o = some l ∧ x ∈ l := by
  cases o <;> simp

/-- What `MinFee` does: it panics, or it gives a fee and the transaction with a non-nil witness set. -/
theorem nil_minFee (C : Crypto) (p : Protocol) (t : Nil.Tx) (h : Nil.Calm t.metadata) (k : Nat) :
    (FeeNeedsNil t ∧ Nil.MinFee C p t k = .panic) ∨
      (¬ FeeNeedsNil t ∧ ∃ f ws, Nil.MinFee C p t k = .ok (f, { t with witness := some ws })) := by
  obtain ⟨body, wit, valid, md⟩ := t
  cases body with
  | none => exact .inl ⟨.inl rfl, rfl⟩
  | some b =>
    obtain ⟨c1, c2⟩ := nil_calcAux_calm C ⟨some ⟨b.inputs, b.outputs, b.fee, b.ttl, []⟩, wit, true, md⟩ h (by simp) k
    obtain ⟨t1, e1, h1⟩ := orElse_total ⟨some ⟨b.inputs, b.outputs, b.fee, b.ttl, []⟩, wit, true, md⟩ _ c1
    have h2 : t1.body ≠ none ∧ t1.metadata = md := by
      rcases h1 with h1 | rfl
      · exact c2 t1 h1
      · exact ⟨by simp, rfl⟩
    cases wit with
    | none =>
      refine .inl ⟨.inr (.inl rfl), ?_⟩
      unfold Nil.MinFee
      dsimp only
      rw [e1]; rfl
    | some ws =>
      obtain ⟨i1, i2⟩ := nil_totalIn (b.inputs.getD []) 0
      obtain ⟨o1, o2⟩ := nil_totalOut (b.outputs.getD []) 0
      have hn : FeeNeedsNil ⟨some b, some ws, valid, md⟩ ↔ none ∈ b.inputs.getD [] ∨ none ∈ b.outputs.getD [] := by
        unfold FeeNeedsNil
        simp only [reduceCtorEq, false_or, Option.some.injEq, exists_eq_left', mem_getD]
      rw [hn]
      unfold Nil.MinFee
      dsimp only
      rw [e1, Res.ok_bind]
      cases hi : Nil.totalIn (b.inputs.getD []) 0 with
      | panic => exact .inl ⟨.inl (i1.1 hi), rfl⟩
      | err m => exact absurd hi (i2 m)
      | ok x =>
        rw [Res.ok_bind]
        cases ho : Nil.totalOut (b.outputs.getD []) 0 with
        | panic => exact .inl ⟨.inr (o1.1 ho), rfl⟩
        | err m => exact absurd ho (o2 m)
        | ok y =>
          refine .inr ⟨?_, ?_⟩
          · rintro (hh | hh)
            · rw [i1.2 hh] at hi; cases hi
            · rw [o1.2 hh] at ho; cases ho
          · rw [Res.ok_bind]
            obtain ⟨t3, e3, h3, h4⟩ := nil_withChange { t1 with witness := some (if ws.length = 0 then ws ++ [some Nil.dummy] else ws) } x y h2.1
            obtain ⟨f, e4⟩ := nil_feePasses_calm C ⟨p.txFeePerByte, p.txFeeFixed⟩ t3 (by rw [h4]; exact h2.2 ▸ h) h3 (k + 1)
            rw [e3, Res.ok_bind, e4]
            exact ⟨f, _, rfl⟩

/-- **C129, fees.** `MinFee` and `AddChangeIfNeeded` panic exactly if a nil pointer is among the inputs or the outputs, or the body or the witness set is nil; they report no error in
any case. (Provided a `MarshalCBOR` method of the metadata does not panic.) -/
theorem C129_fee_panics (C : Crypto) (p : Protocol) (t : Nil.Tx) (h : Nil.Calm t.metadata) (a : Option Address) (k : Nat) :
    (Nil.MinFee C p t k = .panic ↔ FeeNeedsNil t) ∧ (Nil.AddChangeIfNeeded C p a t k = .panic ↔ FeeNeedsNil t) ∧
    (¬ FeeNeedsNil t → ∃ f t' t'', Nil.MinFee C p t k = .ok (f, t') ∧ Nil.AddChangeIfNeeded C p a t k = .ok t'') := by
  rcases nil_minFee C p t h k with ⟨h1, h2⟩ | ⟨h1, f, ws, h2⟩
  · refine ⟨by simp [h1, h2], ?_, fun hn => absurd h1 hn⟩
    unfold Nil.AddChangeIfNeeded
    rw [h2]
    simp only [h1, iff_true]
    rfl
  · have e : ∃ t'', Nil.AddChangeIfNeeded C p a t k = .ok t'' := by
      unfold Nil.AddChangeIfNeeded
      rw [h2]
      obtain ⟨body, wit, valid, md⟩ := t
      cases body with
      | none => exact absurd (.inl rfl) h1
      | some b =>
        simp only [Res.ok_bind, Nil.SetFee]
        cases hi : Nil.totalIn (b.inputs.getD []) 0 with
        | panic =>
          obtain ⟨l, e1, e2⟩ := (mem_getD _ _).1 ((nil_totalIn _ _).1.1 hi)
          exact absurd (.inr (.inr ⟨b, rfl, .inl ⟨l, e1, e2⟩⟩)) h1
        | err m => exact absurd hi ((nil_totalIn _ _).2 m)
        | ok x =>
          cases ho : Nil.totalOut (b.outputs.getD []) 0 with
          | panic =>
            obtain ⟨l, e1, e2⟩ := (mem_getD _ _).1 ((nil_totalOut _ _).1.1 ho)
            exact absurd (.inr (.inr ⟨b, rfl, .inr ⟨l, e1, e2⟩⟩)) h1
          | err m => exact absurd ho ((nil_totalOut _ _).2 m)
          | ok y => exact ⟨_, rfl⟩
    obtain ⟨t'', e⟩ := e
    refine ⟨by simp [h1, h2], by rw [e]; simp [h1], fun _ => ⟨f, _, t'', h2, e⟩⟩

/-! ### The bytes -/

/-- The item written for a slice of bytes. -/
def sliceItem : Option Bytes → Item
  | none => .simple 22
  | some b => .bytes b

/-- The item written for a pointer to an input. -/
def inputPtrItem : Option Nil.Input → Item
  | none => .simple 22
  | some i => .array [sliceItem i.txHash, .uint i.index.toNat]

/-- The item written for a pointer to an output. -/
def outputPtrItem : Option Missing.Output → Item
  | none => .simple 22
  | some o => .array [itemOf o.address, .uint o.amount.toNat]

/-- The item written for a pointer to a witness. -/
def vkeyPtrItem : Option Nil.VKey → Item
  | none => .simple 22
  | some w => .array [sliceItem w.vkey, sliceItem w.signature]

theorem slice_enc (s : Option Bytes) (h : ∀ b, s = some b → b.length < 2 ^ 63) : Enc (Nil.encSlice s) (sliceItem s) := by
  cases s with
  | none => exact enc_nil
  | some b => exact enc_bytes b (by have := h b rfl; omega)

theorem inputPtr_enc (i : Option Nil.Input) (h : ∀ j b, i = some j → j.txHash = some b → b.length < 2 ^ 63) :
    Enc (Nil.marshalInput i) (inputPtrItem i) := by
  cases i with
  | none => exact enc_nil
  | some i =>
    have hi := enc_uint (UInt64.ofNat i.index.toNat)
    rw [ofNat64 _ (by have := UInt16.toNat_lt i.index; omega)] at hi
    exact enc_array _ _ (.cons (slice_enc _ fun b => h i b rfl) (.cons hi .nil)) (by simp)

theorem vkeyPtr_enc (w : Option Nil.VKey) (h : ∀ v b, w = some v → v.vkey = some b ∨ v.signature = some b → b.length < 2 ^ 63) :
    Enc (Nil.marshalVKey w) (vkeyPtrItem w) := by
  cases w with
  | none => exact enc_nil
  | some v =>
    exact enc_array _ _ (.cons (slice_enc _ fun b e => h v b rfl (.inl e)) (.cons (slice_enc _ fun b e => h v b rfl (.inr e)) .nil)) (by simp)

theorem nil_collect_ok (l : List (Option Missing.Output)) (h : ∀ o a, some o ∈ l → o.address = some a → AddressFits a) :
    ∀ bs, Transaction.collect (l.map Nil.marshalOutput) = .ok bs → bs.length = l.length ∧ All2 Enc bs (l.map outputPtrItem) := by
  induction l with
  | nil => intro bs h; have : [] = bs := by injection h
           subst this; exact ⟨rfl, .nil⟩
  | cons o l ih =>
    intro bs hcol
    obtain ⟨b, hb, h'⟩ := bind_ok hcol
    obtain ⟨bs', hbs, h'⟩ := bind_ok h'
    have : b :: bs' = bs := by injection h'
    subst this
    obtain ⟨h1, h2⟩ := ih (fun o a ho => h o a (List.mem_cons_of_mem _ ho)) _ hbs
    refine ⟨by simp [h1], .cons ?_ h2⟩
    cases o with
    | none =>
      have : encNil = b := by injection hb
      rw [← this]; exact enc_nil
    | some o => exact missing_output_enc o (fun a => h o a List.mem_cons_self) b hb

/-- The witness set: what is written is an item, and the ledger cannot read it if something is nil. -/
theorem nil_witness (t : Nil.Tx) (hs : GoSizedNil t) : ∃ w, Enc (Nil.marshalWitness t.witness) w ∧
    ((t.witness = none ∨ ∃ ws, t.witness = some ws ∧ ∃ w ∈ ws, ∀ v, w = some v → v.vkey = none ∨ v.signature = none) →
      ∀ ps, fieldsOf [0] w = some ps → Ledger.optField ps 0 (fun i => (Ledger.elements i).bind (Ledger.all readWitness)) = none) := by
  cases hw : t.witness with
  | none => exact ⟨.simple 22, enc_nil, fun _ ps h => by cases h⟩
  | some ws =>
    obtain ⟨h1, h2⟩ := hs.witness ws hw
    unfold Nil.marshalWitness
    dsimp only
    by_cases h0 : ws.length = 0
    · rw [if_pos h0]
      refine ⟨.map [], enc_map [] [] .nil (by simp), ?_⟩
      rintro (h | ⟨ws', e, w, hw, -⟩)
      · cases h
      · cases e
        rw [List.length_eq_zero_iff.1 h0] at hw
        cases hw
    · rw [if_neg h0]
      have e0 : Enc (encUint 0) (.uint 0) := enc_uint 0
      have e1 : Enc (encArray (ws.map Nil.marshalVKey)) (.array (ws.map vkeyPtrItem)) :=
        enc_array _ _ (Transaction.all2_map _ _ _ fun w hw => vkeyPtr_enc w fun v b e => h2 v b (e ▸ hw)) (by simp; omega)
      refine ⟨_, enc_map _ [(_, _)] (.cons ⟨e0, e1⟩ .nil) (by simp), ?_⟩
      rintro (h | ⟨ws', e, w, hw, hn⟩) ps hps
      · cases h
      · cases e
        have : ps = [(0, .array (ws.map vkeyPtrItem))] := by
          simp [flatPairs, fieldsOf, Ledger.pairs] at hps
          exact hps.symm
        subst this
        simp only [Ledger.optField, List.lookup]
        show Option.map some (Ledger.all readWitness _) = none
        cases e : Ledger.all readWitness (ws.map vkeyPtrItem) with
        | none => rfl
        | some r =>
          refine absurd ?_ (all_mem _ _ _ e _ (List.mem_map.2 ⟨w, hw, rfl⟩))
          cases w with
          | none => rfl
          | some v =>
            obtain ⟨k, s⟩ := v
            rcases hn _ rfl with hk | hk <;> simp only at hk <;> subst hk
            · rfl
            · cases k <;> rfl

/-- The body: what is written is an item, and the ledger cannot read it if something is nil. -/
theorem nil_body (t : Nil.Tx) (hs : GoSizedNil t) (bs : Bytes) (hb : Nil.marshalBody t.body = .ok bs) : ∃ x, Enc bs x ∧
    ((t.body = none ∨ ∃ b, t.body = some b ∧
      (b.inputs = none ∨ b.outputs = none ∨ (∃ l, b.inputs = some l ∧ ∃ i ∈ l, ∀ j, i = some j → j.txHash = none) ∨
        ∃ l, b.outputs = some l ∧ ∃ o ∈ l, ∀ p, o = some p → p.address = none)) →
      ∀ ps, fieldsOf [0, 1, 2, 3, 7] x = some ps →
        Ledger.field ps 0 (fun i => (Ledger.elements i).bind (Ledger.all readInput)) = none ∨
        Ledger.field ps 1 (fun i => (Ledger.elements i).bind (Ledger.all readOutput)) = none) := by
  cases hbd : t.body with
  | none =>
    rw [hbd] at hb
    have : encNil = bs := by injection hb
    rw [← this]
    exact ⟨.simple 22, enc_nil, fun _ ps h => by cases h⟩
  | some b =>
    rw [hbd] at hb
    obtain ⟨outs, ho, hb⟩ := bind_ok hb
    injection hb with hb
    subst hb
    have h0 : Enc (encUint 0) (.uint 0) := enc_uint 0
    have h1 : Enc (encUint 1) (.uint 1) := enc_uint 1
    have h2 : Enc (encUint 2) (.uint 2) := enc_uint 2
    have h3 : Enc (encUint 3) (.uint 3) := enc_uint 3
    have h7 : Enc (encUint 7) (.uint 7) := enc_uint 7
    obtain ⟨ii, hi, ri⟩ : ∃ ii, Enc (Nil.marshalInputs b.inputs) ii ∧
        ((b.inputs = none ∨ ∃ l, b.inputs = some l ∧ ∃ i ∈ l, ∀ j, i = some j → j.txHash = none) → (Ledger.elements ii).bind (Ledger.all readInput) = none) := by
      cases e : b.inputs with
      | none => exact ⟨.simple 22, enc_nil, fun _ => rfl⟩
      | some l =>
        obtain ⟨s1, s2⟩ := hs.inputs b l hbd e
        refine ⟨.array (l.map inputPtrItem), enc_array _ _ (Transaction.all2_map _ _ _ fun i hi => inputPtr_enc i fun j h e => s2 j h (e ▸ hi)) (by simp; omega), ?_⟩
        rintro (h | ⟨l', e', i, hi, hn⟩)
        · cases h
        · cases e'
          show Ledger.all readInput _ = none
          cases er : Ledger.all readInput (l.map inputPtrItem) with
          | none => rfl
          | some r =>
            refine absurd ?_ (all_mem _ _ _ er _ (List.mem_map.2 ⟨i, hi, rfl⟩))
            cases i with
            | none => rfl
            | some j => simp only [inputPtrItem, hn j rfl, sliceItem]; rfl
    obtain ⟨oo, hoo, ro⟩ : ∃ oo, Enc outs oo ∧
        ((b.outputs = none ∨ ∃ l, b.outputs = some l ∧ ∃ o ∈ l, ∀ p, o = some p → p.address = none) → (Ledger.elements oo).bind (Ledger.all readOutput) = none) := by
      cases e : b.outputs with
      | none =>
        rw [e] at ho
        have : encNil = outs := by injection ho
        rw [← this]
        exact ⟨.simple 22, enc_nil, fun _ => rfl⟩
      | some l =>
        rw [e] at ho
        obtain ⟨xs, hxs, ho⟩ := bind_ok ho
        have : encArray xs = outs := by injection ho
        rw [← this]
        obtain ⟨s1, s2⟩ := hs.outputs b l hbd e
        obtain ⟨c1, c2⟩ := nil_collect_ok l s2 xs hxs
        refine ⟨.array (l.map outputPtrItem), enc_array _ _ c2 (by omega), ?_⟩
        rintro (h | ⟨l', e', i, hi, hn⟩)
        · cases h
        · cases e'
          show Ledger.all readOutput _ = none
          cases er : Ledger.all readOutput (l.map outputPtrItem) with
          | none => rfl
          | some r =>
            refine absurd ?_ (all_mem _ _ _ er _ (List.mem_map.2 ⟨i, hi, rfl⟩))
            cases i with
            | none => rfl
            | some j => simp only [outputPtrItem, hn j rfl, itemOf]; rfl
    have hfee := enc_uint b.fee
    have httl := enc_uint (UInt64.ofNat b.ttl.toNat)
    have haux := enc_bytes b.auxHash (by have := hs.aux b hbd; omega)
    have fin : ∀ x ps, fieldsOf [0, 1, 2, 3, 7] x = some ps → ps.lookup 0 = some ii → ps.lookup 1 = some oo →
        ((some b = none ∨ ∃ b', some b = some b' ∧
      (b'.inputs = none ∨ b'.outputs = none ∨ (∃ l, b'.inputs = some l ∧ ∃ i ∈ l, ∀ j, i = some j → j.txHash = none) ∨
        ∃ l, b'.outputs = some l ∧ ∃ o ∈ l, ∀ p, o = some p → p.address = none)) →
      ∀ ps, fieldsOf [0, 1, 2, 3, 7] x = some ps →
        Ledger.field ps 0 (fun i => (Ledger.elements i).bind (Ledger.all readInput)) = none ∨
        Ledger.field ps 1 (fun i => (Ledger.elements i).bind (Ledger.all readOutput)) = none) := by
      intro x ps e1 e2 e3 hn ps' e4
      rw [e1] at e4
      cases e4
      unfold Ledger.field
      rw [e2, e3]
      rcases hn with hn | ⟨b', e, hn⟩
      · cases hn
      · cases e
        rcases hn with hn | hn | hn | hn
        · exact .inl (ri (.inl hn))
        · exact .inr (ro (.inl hn))
        · exact .inl (ri (.inr hn))
        · exact .inr (ro (.inr hn))
    by_cases c1 : b.ttl = 0 <;> by_cases c2 : b.auxHash.length = 0
    · rw [if_pos c1, if_pos c2]
      exact ⟨_, enc_map _ [(_, _), (_, _), (_, _)] (.cons ⟨h0, hi⟩ (.cons ⟨h1, hoo⟩ (.cons ⟨h2, hfee⟩ .nil))) (by simp),
        fin _ _ (by simp [flatPairs, fieldsOf, Ledger.pairs]; rfl) (by simp [List.lookup]) (by simp [List.lookup])⟩
    · rw [if_pos c1, if_neg c2]
      exact ⟨_, enc_map _ [(_, _), (_, _), (_, _), (_, _)] (.cons ⟨h0, hi⟩ (.cons ⟨h1, hoo⟩ (.cons ⟨h2, hfee⟩ (.cons ⟨h7, haux⟩ .nil)))) (by simp),
        fin _ _ (by simp [flatPairs, fieldsOf, Ledger.pairs]; rfl) (by simp [List.lookup]) (by simp [List.lookup])⟩
    · rw [if_neg c1, if_pos c2]
      exact ⟨_, enc_map _ [(_, _), (_, _), (_, _), (_, _)] (.cons ⟨h0, hi⟩ (.cons ⟨h1, hoo⟩ (.cons ⟨h2, hfee⟩ (.cons ⟨h3, httl⟩ .nil)))) (by simp),
        fin _ _ (by simp [flatPairs, fieldsOf, Ledger.pairs]; rfl) (by simp [List.lookup]) (by simp [List.lookup])⟩
    · rw [if_neg c1, if_neg c2]
      exact ⟨_, enc_map _ [(_, _), (_, _), (_, _), (_, _), (_, _)] (.cons ⟨h0, hi⟩ (.cons ⟨h1, hoo⟩ (.cons ⟨h2, hfee⟩ (.cons ⟨h3, httl⟩ (.cons ⟨h7, haux⟩ .nil))))) (by simp),
        fin _ _ (by simp [flatPairs, fieldsOf, Ledger.pairs]; rfl) (by simp [List.lookup]) (by simp [List.lookup])⟩

theorem assemble_unreadable (x w : Item)
    (h : (∀ ps, fieldsOf [0, 1, 2, 3, 7] x = some ps →
        Ledger.field ps 0 (fun i => (Ledger.elements i).bind (Ledger.all readInput)) = none ∨
        Ledger.field ps 1 (fun i => (Ledger.elements i).bind (Ledger.all readOutput)) = none) ∨
      ∀ ps, fieldsOf [0] w = some ps → Ledger.optField ps 0 (fun i => (Ledger.elements i).bind (Ledger.all readWitness)) = none)
    (size : Nat) (v y : Item) (bd aux : Bytes) : assemble size x w v y bd aux = none := by
  cases e : assemble size x w v y bd aux with
  | none => rfl
  | some r =>
    exfalso
    unfold assemble at e
    simp only [Option.bind_eq_bind, Option.bind_eq_some_iff] at e
    obtain ⟨ps, e1, i, e2, o, e3, f, e4, ttl, e5, ah, e6, ws, e7, wi, e8, e⟩ := e
    rcases h with h | h
    · rcases h ps e1 with h | h
      · rw [h] at e2; cases e2
      · rw [h] at e3; cases e3
    · rw [h ws e7] at e8; cases e8

theorem nil_calcAux_keeps (C : Crypto) (h256 : ∀ m, (C.blake256 m).length = 32) (t t' : Nil.Tx) (k : Nat) (h : Nil.calcAux C t k = .ok t')
    (hs : GoSizedNil t) (hn : HasNil t) : GoSizedNil t' ∧ HasNil t' := by
  unfold Nil.calcAux at h
  split at h
  · injection h with h; subst h; exact ⟨hs, hn⟩
  · split at h
    · split at h
      · cases h
      · next b hb =>
        injection h with h
        subst h
        refine ⟨⟨?_, ?_, ?_, hs.witness⟩, ?_⟩
        · intro b' l e; cases e; exact hs.inputs b l hb
        · intro b' l e; cases e; exact hs.outputs b l hb
        · intro b' e; cases e; rw [h256]; decide
        · rcases hn with hn | hn | hn | ⟨b', e, hn⟩
          · rw [hb] at hn; cases hn
          · exact .inr (.inl hn)
          · exact .inr (.inr (.inl hn))
          · rw [hb] at e; cases e
            exact .inr (.inr (.inr ⟨_, rfl, hn⟩))
    · cases h
    · cases h

/-- **C129, acceptance.** If anything is nil in a transaction, a part, a list, an element, the hash of an input, the address of an output, the key or the signature of a witness,
then no ledger accepts the bytes that `Bytes` returns. -/
theorem C129_rejected (C : Crypto) (h256 : ∀ m, (C.blake256 m).length = 32) (t : Nil.Tx) (hs : GoSizedNil t) (hn : HasNil t) (k : Nat) (bs : Bytes)
    (hb : Nil.bytes C t k = .ok bs) (L : Ledger.Crypto) (e : Ledger.Env) (u : Ledger.UTxO) : ¬ Ledger.Valid L e u bs := by
  rintro ⟨v, hv, -⟩
  obtain ⟨t', h1, h2⟩ := bind_ok hb
  obtain ⟨hs', hn'⟩ := nil_calcAux_keeps C h256 t t' k h1 hs hn
  obtain ⟨bb, h3, h2⟩ := bind_ok h2
  obtain ⟨m, -, h2⟩ := bind_ok h2
  obtain ⟨x, hx, rx⟩ := nil_body t' hs' bb h3
  obtain ⟨w, hw, rw'⟩ := nil_witness t' hs'
  have hun := assemble_unreadable x w (by
    rcases hn' with hn | hn | hn | hn
    · exact .inl (rx (.inl hn))
    · exact .inr (rw' (.inl hn))
    · exact .inr (rw' (.inr hn))
    · exact .inl (rx (.inr hn)))
  have h4 : encArray [bb, Nil.marshalWitness t'.witness, encBool t'.valid, m] = bs := by injection h2
  have h5 : encHead 0x80 (UInt64.ofNat 4) = [0x84] := by decide
  simp only [encArray, List.length_cons, List.length_nil, h5, List.flatten_cons] at h4
  obtain ⟨rest, hr⟩ : ∃ rest, bs = 0x84 :: (bb ++ (Nil.marshalWitness t'.witness ++ rest)) := ⟨_, h4.symm⟩
  rw [hr] at hv
  unfold Ledger.read at hv
  dsimp only at hv
  rw [if_pos rfl, hx.parseFirst] at hv
  simp only [Option.bind_eq_bind, Option.bind_some] at hv
  rw [hw.parseFirst] at hv
  simp only [Option.bind_some, hun] at hv
  cases e1 : parseFirst rest with
  | none => rw [e1] at hv; cases hv
  | some p =>
    rw [e1] at hv
    simp only [Option.bind_some] at hv
    cases e2 : parseFirst p.2 with
    | none => rw [e2] at hv; cases hv
    | some q => rw [e2] at hv; simp only [Option.bind_some, ite_self] at hv; cases hv

/-! ### Nothing is reported -/

/-- The addresses in the transaction can be encoded, where there are any. -/
def Encodable (t : Nil.Tx) : Prop :=
  ∀ b l, t.body = some b → b.outputs = some l → ∀ o a, some o ∈ l → o.address = some a → ∃ x, Transaction.marshalAddress a = .ok x

theorem nil_outputs_ok (l : List (Option Missing.Output)) (h : ∀ o a, some o ∈ l → o.address = some a → ∃ x, Transaction.marshalAddress a = .ok x) :
    ∃ outs, Transaction.collect (l.map Nil.marshalOutput) = .ok outs := by
  induction l with
  | nil => exact ⟨_, rfl⟩
  | cons o l ih =>
    obtain ⟨outs, e⟩ := ih fun o a ho => h o a (List.mem_cons_of_mem _ ho)
    have : ∃ x, Nil.marshalOutput o = .ok x := by
      cases o with
      | none => exact ⟨_, rfl⟩
      | some o =>
        have : ∃ x, Missing.marshalAddress o.address = .ok x := by
          cases ha : o.address with
          | none => exact ⟨_, rfl⟩
          | some a => exact h o a List.mem_cons_self ha
        obtain ⟨x, hx⟩ := this
        refine ⟨encArray [x, encUint o.amount], ?_⟩
        show Missing.marshalOutput o = _
        unfold Missing.marshalOutput
        rw [hx]; rfl
    obtain ⟨x, hx⟩ := this
    refine ⟨x :: outs, ?_⟩
    simp only [List.map_cons, Transaction.collect, hx, e, Res.ok_bind]
    rfl

theorem nil_body_ok (t : Nil.Tx) (h : Encodable t) : ∃ bb, Nil.marshalBody t.body = .ok bb := by
  cases hb : t.body with
  | none => exact ⟨_, rfl⟩
  | some b =>
    have : ∃ outs, Nil.marshalOutputs b.outputs = .ok outs := by
      cases ho : b.outputs with
      | none => exact ⟨_, rfl⟩
      | some l =>
        obtain ⟨xs, e⟩ := nil_outputs_ok l (h b l hb ho)
        exact ⟨encArray xs, by unfold Nil.marshalOutputs; dsimp only; rw [e]; rfl⟩
    obtain ⟨outs, e⟩ := this
    unfold Nil.marshalBody
    dsimp only
    rw [e]
    exact ⟨_, rfl⟩

/-- **C129, the claim is false.** Nothing is reported: whatever is nil in a transaction without metadata, `Hash`, `Fee` and `Bytes` succeed, and `Build` signs it with every list of
keys that can sign. With metadata they do the same if there is a body, and panic if there is none. -/
theorem C129_not_reported (C : Crypto) (t : Nil.Tx) (h : Encodable t) (l : LinearFee) (keys : List Bytes)
    (hk : ∀ x ∈ keys, ∀ m, ∃ a b, C.publicKey x = .ok a ∧ C.sign x m = .ok b) :
    ((t.metadata = none ∨ t.body ≠ none ∧ ∀ m, t.metadata = some m → ∀ k, ∃ b, m.enc k = .ok b) → ∀ k,
      (∃ x, Nil.hash C t k = .ok x) ∧ (∃ f, Nil.fee C l t k = .ok f) ∧ (∃ bs, Nil.bytes C t k = .ok bs) ∧
      ∃ t', Nil.Build C keys t k = .ok t' ∧ ∃ bs, Nil.bytes C t' (k + 1) = .ok bs) ∧
    (t.body = none → ∀ m, t.metadata = some m → ∀ k b, m.enc k = .ok b →
      Nil.hash C t k = .panic ∧ Nil.fee C l t k = .panic ∧ Nil.bytes C t k = .panic ∧ Nil.Build C keys t k = .panic) := by
  have hws : ∀ x, ∃ ws, TxBuilder.witnessesOf C x keys = .ok ws := by
    intro x
    clear h
    induction keys with
    | nil => exact ⟨_, rfl⟩
    | cons k ks ih =>
      obtain ⟨ws, e⟩ := ih fun k hk' => hk k (List.mem_cons_of_mem _ hk')
      obtain ⟨a, b, h1, h2⟩ := hk k List.mem_cons_self x
      refine ⟨⟨a, b⟩ :: ws, ?_⟩
      simp only [TxBuilder.witnessesOf, TxBuilder.witnessOf, h1, h2, e, Res.ok_bind]
      rfl
  constructor
  · intro hm k
    have aux : ∀ (t : Nil.Tx), Encodable t → (t.metadata = none ∨ t.body ≠ none ∧ ∀ m, t.metadata = some m → ∀ k, ∃ b, m.enc k = .ok b) → ∀ k,
        ∃ t', Nil.calcAux C t k = .ok t' ∧ Encodable t' ∧ (t'.metadata = none ∨ t'.body ≠ none ∧ ∀ m, t'.metadata = some m → ∀ k, ∃ b, m.enc k = .ok b) := by
      intro t h hm k
      unfold Nil.calcAux
      rcases hm with hm | ⟨hb, hm⟩
      · rw [hm]; exact ⟨t, rfl, h, .inl hm⟩
      · cases e : t.metadata with
        | none => exact ⟨t, rfl, h, .inl e⟩
        | some m =>
          obtain ⟨x, hx⟩ := hm m e k
          cases eb : t.body with
          | none => exact absurd eb hb
          | some b =>
            dsimp only
            rw [hx]
            refine ⟨_, rfl, ?_, .inr ⟨by simp, fun m' e' k => ?_⟩⟩
            · intro b' l e; cases e; exact h b l eb
            · cases e'; exact hm m e k
    have md : ∀ (t : Nil.Tx), (t.metadata = none ∨ t.body ≠ none ∧ ∀ m, t.metadata = some m → ∀ k, ∃ b, m.enc k = .ok b) → ∀ k,
        ∃ x, Transaction.marshalMetadata t.metadata k = .ok x := by
      intro t hm k
      cases e : t.metadata with
      | none => exact ⟨_, rfl⟩
      | some m =>
        rcases hm with hm | ⟨-, hm⟩
        · rw [hm] at e; cases e
        · exact hm m e k
    have tx : ∀ (t : Nil.Tx), Encodable t → (t.metadata = none ∨ t.body ≠ none ∧ ∀ m, t.metadata = some m → ∀ k, ∃ b, m.enc k = .ok b) → ∀ k,
        ∃ x, Nil.marshalTx t k = .ok x := by
      intro t h hm k
      obtain ⟨bb, e1⟩ := nil_body_ok t h
      obtain ⟨x, e2⟩ := md t hm k
      unfold Nil.marshalTx
      rw [e1, Res.ok_bind, e2]
      exact ⟨_, rfl⟩
    have by' : ∀ (t : Nil.Tx), Encodable t → (t.metadata = none ∨ t.body ≠ none ∧ ∀ m, t.metadata = some m → ∀ k, ∃ b, m.enc k = .ok b) → ∀ k,
        ∃ bs, Nil.bytes C t k = .ok bs := by
      intro t h hm k
      obtain ⟨t', e1, h1, h2⟩ := aux t h hm k
      obtain ⟨x, e2⟩ := tx t' h1 h2 (k + 1)
      exact ⟨x, by unfold Nil.bytes; rw [e1]; exact e2⟩
    obtain ⟨t', e1, h1, h2⟩ := aux t h hm k
    obtain ⟨bb, e2⟩ := nil_body_ok t' h1
    obtain ⟨x, e3⟩ := tx t' h1 h2 (k + 1)
    have eh : Nil.hash C t k = .ok (C.blake256 bb) := by unfold Nil.hash; rw [e1, Res.ok_bind, e2]; rfl
    refine ⟨⟨_, eh⟩, ⟨_, by unfold Nil.fee; rw [e1, Res.ok_bind, e3]; rfl⟩, by' t h hm k, ?_⟩
    obtain ⟨ws, e4⟩ := hws (C.blake256 bb)
    refine ⟨{ t' with witness := some (ws.map fun w => some ⟨some w.vkey, some w.signature⟩) },
      by unfold Nil.Build; rw [eh, Res.ok_bind, e1, Res.ok_bind, e4]; rfl, ?_⟩
    exact by' { t' with witness := some (ws.map fun w => some ⟨some w.vkey, some w.signature⟩) } h1 h2 (k + 1)
  · intro hb m hm k b hk'
    have e : Nil.calcAux C t k = .panic := by unfold Nil.calcAux; rw [hm]; dsimp only; rw [hk', hb]
    have eh : Nil.hash C t k = .panic := by unfold Nil.hash; rw [e]; rfl
    exact ⟨eh, by unfold Nil.fee; rw [e]; rfl, by unfold Nil.bytes; rw [e]; rfl, by unfold Nil.Build; rw [eh]; rfl⟩

/-- **C129, the other half.** Where nothing is nil, these are the functions that the other properties speak about. -/
theorem C129_agree (C : Crypto) (t : Tx) (l : LinearFee) (k : Nat) :
    ¬ HasNil (Nil.Tx.of t) ∧ Nil.bytes C (Nil.Tx.of t) k = Transaction.bytes C t k ∧ Nil.hash C (Nil.Tx.of t) k = Transaction.hash C t k ∧
    Nil.fee C l (Nil.Tx.of t) k = Transaction.fee C l t k ∧
    ∀ b : Builder, Nil.Calm b.metadata → b.wit < b.wits.length →
      Nil.MinFee C b.protocol (Nil.Tx.of (TxBuilder.tx b)) b.clock =
        .ok ((TxBuilder.MinFee C b).1, Nil.Tx.of (TxBuilder.tx (TxBuilder.MinFee C b).2)) := by
  refine ⟨?_, Nil.bytes_of C t k, Nil.hash_of C t k, Nil.fee_of C l t k, Nil.MinFee_of C⟩
  rintro (h | h | ⟨ws, e, w, hw, hn⟩ | ⟨b, e, hn⟩)
  · cases h
  · cases h
  · cases e
    obtain ⟨v, -, rfl⟩ := List.mem_map.1 hw
    rcases hn _ rfl with h | h <;> cases h
  · cases e
    rcases hn with h | h | ⟨l, e, i, hi, hn⟩ | ⟨l, e, i, hi, hn⟩
    · cases h
    · cases h
    · cases e
      obtain ⟨v, -, rfl⟩ := List.mem_map.1 hi
      exact absurd (hn _ rfl) (by simp [Nil.Input.of])
    · cases e
      obtain ⟨v, -, rfl⟩ := List.mem_map.1 hi
      exact absurd (hn _ rfl) (by simp [Missing.Output.of])

/-! ### Cases -/

/-- `tb.AddInputs(nil)` on a new builder, then `tb.Tx()`. -/
def nilInput : Nil.Tx := ⟨some ⟨some [none], some [], 0, 0, []⟩, some [], true, none⟩

example : Nil.AddInputs ⟨some ⟨some [], some [], 0, 0, []⟩, some [], true, none⟩ [none] = .ok nilInput := rfl

/-- The hypotheses of the theorems are met. -/
example : FeeNeedsNil nilInput ∧ HasNil nilInput ∧ GoSizedNil nilInput ∧ Encodable nilInput ∧ Nil.Calm nilInput.metadata := by
  refine ⟨.inr (.inr ⟨_, rfl, .inl ⟨_, rfl, List.mem_cons_self⟩⟩), .inr (.inr (.inr ⟨_, rfl, .inr (.inr (.inl ⟨_, rfl, none, List.mem_cons_self, fun j h => by cases h⟩))⟩)),
    ⟨?_, ?_, ?_, ?_⟩, ?_, fun m h => by cases h⟩
  · intro b l e1 e2; cases e1; cases e2; exact ⟨by decide, fun i h hi => by simp at hi⟩
  · intro b l e1 e2; cases e1; cases e2; exact ⟨by decide, fun i h hi => by simp at hi⟩
  · intro b e1; cases e1; decide
  · intro ws e1; cases e1; exact ⟨by decide, fun i h hi => by simp at hi⟩
  · intro b l e1 e2; cases e1; cases e2; exact fun i h hi => by simp at hi

/-- The bytes of a transaction made as `tx.Tx{}`: three nulls. -/
example (C : Crypto) : Nil.bytes C ⟨none, none, false, none⟩ 0 = .ok [0x84, 0xf6, 0xf6, 0xf4, 0xf6] := rfl

/-- The bytes of a transaction with a nil input. -/
example (C : Crypto) : Nil.bytes C nilInput 0 = .ok [0x84, 0xa3, 0x00, 0x81, 0xf6, 0x01, 0x80, 0x02, 0x00, 0xa0, 0xf5, 0xf6] := rfl

end Cardano.Props
