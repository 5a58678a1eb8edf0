import Verif.Tx.Missing
import Verif.Ledger.Read
import Verif.Props.Ledger
/-!
# Property C113: what `NewAddress` returns together with an error

A caller who ignores the error pays to nil, or to a Byron address that was read in part.
-/
set_option autoImplicit false

namespace Cardano.Props
open Cbor TxSpec Addr Missing
open Ledger (read readOutput assemble fieldsOf)

/-! ### Specification -/

/-- No address, or a Byron address. -/
def Leftover (a : Option Address) : Prop := a = none ∨ ∃ b, a = some (.byron b)

/-- The call pays to the address: as an output, or as the change. -/
def PaysOptional (a : Option Address) : Missing.Op → Prop
  | .addOutputs l => ∃ o ∈ l, o.address = a
  | .addChange c => c = a
  | _ => False

/-- Lengths are Go lengths. -/
structure GoSized (b : Missing.Body) : Prop where
  inputs : b.inputs.length < 2 ^ 63
  outputs : b.outputs.length < 2 ^ 63
  hashes : ∀ i ∈ b.inputs, i.txHash.length < 2 ^ 63
  addrs : ∀ o ∈ b.outputs, ∀ a, o.address = some a → AddressFits a
  aux : b.auxHash.length < 2 ^ 63

/-! ### The bytes -/

/-- The item written for an address, or for none. -/
def itemOf : Option Address → Item
  | none => .simple 22
  | some a => addressItem a

theorem missing_output_enc (o : Output) (h : ∀ a, o.address = some a → AddressFits a) (b : Bytes) (hb : Missing.marshalOutput o = .ok b) :
    Enc b (.array [itemOf o.address, .uint o.amount.toNat]) := by
  obtain ⟨x, hx, hb⟩ := bind_ok hb
  have : encArray [x, encUint o.amount] = b := by injection hb
  rw [← this]
  refine enc_array _ _ (.cons ?_ (.cons (enc_uint _) .nil)) (by simp)
  cases e : o.address with
  | none =>
    rw [e] at hx
    have : encNil = x := by injection hx
    rw [← this]; exact enc_nil
  | some a => rw [e] at hx; exact Transaction.address_enc a (h a e) x hx

theorem missing_collect_ok (l : List Output) : ∀ bs, Transaction.collect (l.map Missing.marshalOutput) = .ok bs →
    bs.length = l.length ∧ All2 (fun b o => Missing.marshalOutput o = .ok b) bs l := by
  induction l with
  | nil => intro bs h; have : [] = bs := by injection h
           subst this; exact ⟨rfl, .nil⟩
  | cons o l ih =>
    intro bs h
    obtain ⟨b, hb, h⟩ := bind_ok h
    obtain ⟨bs', hbs, h⟩ := bind_ok h
    have : b :: bs' = bs := by injection h
    subst this
    obtain ⟨h1, h2⟩ := ih _ hbs
    exact ⟨by simp [h1], .cons hb h2⟩

/-- The body as an item: field 1 holds the outputs. -/
theorem missing_body_enc (b : Missing.Body) (hf : GoSized b) (bs : Bytes) (h : Missing.marshalBody b = .ok bs) :
    ∃ x ps, Enc bs x ∧ fieldsOf [0, 1, 2, 3, 7] x = some ps ∧
      ps.lookup 1 = some (.array (b.outputs.map fun o => .array [itemOf o.address, .uint o.amount.toNat])) := by
  obtain ⟨outs, ho, h⟩ := bind_ok h
  obtain ⟨hl, ha⟩ := missing_collect_ok _ _ ho
  injection h with h
  subst h
  have h0 : Enc (encUint 0) (.uint 0) := enc_uint 0
  have h1 : Enc (encUint 1) (.uint 1) := enc_uint 1
  have h2 : Enc (encUint 2) (.uint 2) := enc_uint 2
  have h3 : Enc (encUint 3) (.uint 3) := enc_uint 3
  have h7 : Enc (encUint 7) (.uint 7) := enc_uint 7
  have hi : Enc (encArray (b.inputs.map Transaction.marshalInput)) (.array (b.inputs.map inputItem)) :=
    enc_array _ _ (Transaction.all2_map _ _ _ fun i hi => Transaction.input_enc i (hf.hashes i hi)) (by have := hf.inputs; simp; omega)
  have hout : Enc (encArray outs) (.array (b.outputs.map fun o => .array [itemOf o.address, .uint o.amount.toNat])) :=
    enc_array _ _ (Transaction.all2_imp _ ha fun x y hy hr => missing_output_enc y (hf.addrs y hy) x hr) (by have := hf.outputs; omega)
  have hfee := enc_uint b.fee
  have httl := enc_uint (UInt64.ofNat b.ttl.toNat)
  have haux := enc_bytes b.auxHash (by have := hf.aux; omega)
  by_cases c1 : b.ttl = 0 <;> by_cases c2 : b.auxHash.length = 0
  · rw [if_pos c1, if_pos c2]
    exact ⟨_, _, enc_map _ [(_, _), (_, _), (_, _)] (.cons ⟨h0, hi⟩ (.cons ⟨h1, hout⟩ (.cons ⟨h2, hfee⟩ .nil))) (by simp), by simp [flatPairs, fieldsOf, Ledger.pairs]; rfl,
      by simp [List.lookup]⟩
  · rw [if_pos c1, if_neg c2]
    exact ⟨_, _, enc_map _ [(_, _), (_, _), (_, _), (_, _)] (.cons ⟨h0, hi⟩ (.cons ⟨h1, hout⟩ (.cons ⟨h2, hfee⟩ (.cons ⟨h7, haux⟩ .nil)))) (by simp),
      by simp [flatPairs, fieldsOf, Ledger.pairs]; rfl, by simp [List.lookup]⟩
  · rw [if_neg c1, if_pos c2]
    exact ⟨_, _, enc_map _ [(_, _), (_, _), (_, _), (_, _)] (.cons ⟨h0, hi⟩ (.cons ⟨h1, hout⟩ (.cons ⟨h2, hfee⟩ (.cons ⟨h3, httl⟩ .nil)))) (by simp),
      by simp [flatPairs, fieldsOf, Ledger.pairs]; rfl, by simp [List.lookup]⟩
  · rw [if_neg c1, if_neg c2]
    exact ⟨_, _, enc_map _ [(_, _), (_, _), (_, _), (_, _), (_, _)] (.cons ⟨h0, hi⟩ (.cons ⟨h1, hout⟩ (.cons ⟨h2, hfee⟩ (.cons ⟨h3, httl⟩ (.cons ⟨h7, haux⟩ .nil))))) (by simp),
      by simp [flatPairs, fieldsOf, Ledger.pairs]; rfl, by simp [List.lookup]⟩

theorem all_mem {α : Type} (f : Item → Option α) (l : List Item) (r : List α) (h : Ledger.all f l = some r) : ∀ x ∈ l, f x ≠ none := by
  induction l generalizing r with
  | nil => simp
  | cons y l ih =>
    unfold Ledger.all at h
    split at h
    · next e1 e2 =>
      intro x hx
      rcases List.mem_cons.1 hx with rfl | hx
      · rw [e1]; simp
      · exact ih _ e2 x hx
    · cases h

/-- No reader of the ledger accepts a body with such an output, whatever follows the body. -/
theorem unreadable (b : Missing.Body) (hf : GoSized b) (body rest : Bytes) (h : Missing.marshalBody b = .ok body) (o : Output) (ho : o ∈ b.outputs) (ha : Leftover o.address) :
    read (0x84 :: (body ++ rest)) = none := by
  obtain ⟨x, ps, he, hp, hl⟩ := missing_body_enc b hf body h
  unfold Ledger.read
  dsimp only
  rw [if_pos rfl, he.parseFirst]
  simp only [Option.bind_eq_bind, Option.bind_some]
  have ha' : ∀ size w v y bd aux, assemble size x w v y bd aux = none := fun size w v y bd aux => by
    unfold assemble
    rw [hp]
    simp only [Option.bind_eq_bind, Option.bind_some]
    have : Ledger.field ps 1 (fun i => (Ledger.elements i).bind (Ledger.all readOutput)) = none := by
      unfold Ledger.field
      rw [hl]
      show Ledger.all readOutput _ = none
      cases e : Ledger.all readOutput (b.outputs.map fun o => .array [itemOf o.address, .uint o.amount.toNat]) with
      | none => rfl
      | some r =>
        refine absurd ?_ (all_mem _ _ _ e _ (List.mem_map.2 ⟨o, ho, rfl⟩))
        rcases ha with ha | ⟨y, ha⟩ <;> rw [ha] <;> rfl
    rw [this]
    simp
  cases parseFirst rest with
  | none => rfl
  | some w =>
    simp only [Option.bind_some]
    cases parseFirst w.2 with
    | none => rfl
    | some v =>
      simp only [Option.bind_some]
      cases parseFirst v.2 with
      | none => rfl
      | some y => simp only [Option.bind_some, ha']; split <;> rfl

/-! ### The builder -/

theorem missing_afterAux (C : Crypto) (t : Missing.Tx) (k : Nat) : (Missing.afterAux C t k).body.outputs = t.body.outputs := by
  unfold Missing.afterAux Missing.calcAux
  cases t.metadata with
  | none => rfl
  | some m => dsimp only; cases m.enc k <;> rfl

theorem missing_calcAux (C : Crypto) (t : Missing.Tx) (k : Nat) (b : Missing.Body) (h : Missing.calcAux C t k = .ok b) :
    b.outputs = t.body.outputs ∧ b.inputs = t.body.inputs ∧ (b.auxHash = t.body.auxHash ∨ ∃ m, b.auxHash = C.blake256 m) := by
  unfold Missing.calcAux at h
  split at h
  · cases h; exact ⟨rfl, rfl, .inl rfl⟩
  · split at h
    · cases h; exact ⟨rfl, rfl, .inr ⟨_, rfl⟩⟩
    · cases h
    · cases h

theorem missing_build_body (C : Crypto) (b : Missing.Builder) : (Missing.Build C b).2.body = (Missing.afterAux C (Missing.tx b) b.clock).body := by
  unfold Missing.Build
  dsimp only
  split
  · rfl
  · rfl
  · split <;> rfl

/-- Outputs are only appended. -/
theorem missing_step_keeps (C : Crypto) (b : Missing.Builder) (op : Missing.Op) (o : Output) (ho : o ∈ b.body.outputs) : o ∈ (Missing.step C b op).body.outputs := by
  cases op with
  | addOutputs l => exact List.mem_append_left _ ho
  | addChange a => exact List.mem_append_left _ ho
  | build => show o ∈ (Missing.Build C b).2.body.outputs; rw [missing_build_body, missing_afterAux]; exact ho
  | bytesOf h => show o ∈ (Missing.afterAux C (Missing.view b h) b.clock).body.outputs; rw [missing_afterAux]; exact ho
  | _ => exact ho

theorem missing_paid (C : Crypto) (ops : List Missing.Op) (a : Option Address) (op : Missing.Op) (hop : op ∈ ops) (ha : PaysOptional a op) :
    ∀ b, ∃ o ∈ (Missing.run C b ops).body.outputs, o.address = a := by
  have keep : ∀ (l : List Missing.Op) b (o : Output), o ∈ b.body.outputs → o ∈ (Missing.run C b l).body.outputs := by
    intro l
    induction l with
    | nil => exact fun _ _ h => h
    | cons x l ih => exact fun b o h => ih _ o (missing_step_keeps C b x o h)
  obtain ⟨l1, l2, rfl⟩ := List.append_of_mem hop
  intro b
  have e : Missing.run C b (l1 ++ op :: l2) = Missing.run C (Missing.step C (Missing.run C b l1) op) l2 := by
    simp [Missing.run, List.foldl_append]
  rw [e]
  generalize Missing.run C b l1 = b1
  cases op with
  | addOutputs l =>
    obtain ⟨o, ho, e⟩ := ha
    exact ⟨o, keep _ _ _ (List.mem_append_right _ ho), e⟩
  | addChange c => exact ⟨_, keep _ _ _ (List.mem_append_right _ (List.mem_singleton.2 rfl)), ha⟩
  | _ => exact ha.elim

/-- **C113** (what is returned). Beside an error the three functions return nil or a Byron address; without an error, the address of the functions in `Address/Model`, and an error exactly when those have one. -/
theorem C113_returned (strict : Bool) (text spare : Bytes) (left : ByronAddress) (a : Option Address) (failed : Bool) (r : Res Address)
    (h : NewAddressBoth strict text spare left = .ok (a, failed) ∧ NewAddress strict text spare = r ∨ NewAddressFromHexBoth strict text spare left = .ok (a, failed) ∧
      NewAddressFromHex strict text spare = r ∨ NewAddressFromBytesBoth strict text spare left = .ok (a, failed) ∧ NewAddressFromBytes strict text spare = r) :
    (failed = true ∧ Leftover a ∧ ∃ m, r = .err m) ∨ (failed = false ∧ ∃ x, a = some x ∧ r = .ok x) := by
  have key : ∀ data, NewAddressFromBytesBoth strict data spare left = .ok (a, failed) →
      (failed = true ∧ Leftover a ∧ ∃ m, NewAddressFromBytes strict data spare = .err m) ∨ (failed = false ∧ ∃ x, a = some x ∧ NewAddressFromBytes strict data spare = .ok x) := by
    intro data h
    unfold NewAddressFromBytesBoth at h
    split at h
    · next x e => cases h; exact .inr ⟨rfl, x, rfl, e⟩
    · next m e =>
      split at h
      · cases h; exact .inl ⟨rfl, .inr ⟨_, rfl⟩, m, e⟩
      · cases h; exact .inl ⟨rfl, .inl rfl, m, e⟩
    · cases h
  rcases h with ⟨h, rfl⟩ | ⟨h, rfl⟩ | ⟨h, rfl⟩
  · unfold NewAddressBoth at h
    unfold NewAddress
    split at h
    · next c =>
      rw [if_pos c]
      split at h
      · next e => rw [e]; exact key _ h
      · next m e => cases h; rw [e]; exact .inl ⟨rfl, .inl rfl, m, rfl⟩
      · cases h
    · next c => rw [if_neg c]; exact key _ h
  · unfold NewAddressFromHexBoth at h
    unfold NewAddressFromHex
    split at h
    · next e m e1 => cases h; rw [e1]; exact .inl ⟨rfl, .inl rfl, m, rfl⟩
    · next e1 => rw [e1]; exact key _ h
  · exact key _ h

/-- **C113.** If any call on a builder pays to what `NewAddress` has returned together with an error, as output or as change, then whatever else was called, no ledger state accepts the
bytes of the transaction: `Build` or `Bytes` reports an error, or the ledger cannot read them. -/
theorem C113_not_paid (C : Crypto) (h256 : ∀ m, (C.blake256 m).length = 32) (p : Protocol) (ks : List Bytes) (ops : List Missing.Op) (a : Option Address) (ha : Leftover a)
    (op : Missing.Op) (hop : op ∈ ops) (hp : PaysOptional a op) (hf : GoSized (Missing.run C (Missing.NewTxBuilder p ks) ops).body) (h : Handle) (k : Nat) (bs : Bytes)
    (hb : Missing.bytes C (Missing.view (Missing.run C (Missing.NewTxBuilder p ks) ops) h) k = .ok bs) (L : Ledger.Crypto) (e : Ledger.Env) (u : Ledger.UTxO) :
    ¬ Ledger.Valid L e u bs := by
  obtain ⟨o, ho, e1⟩ := missing_paid C ops a op hop hp (Missing.NewTxBuilder p ks)
  generalize Missing.run C (Missing.NewTxBuilder p ks) ops = b at *
  rintro ⟨v, hv, -⟩
  obtain ⟨body, h1, h2⟩ := bind_ok hb
  obtain ⟨bb, h3, h2⟩ := bind_ok h2
  obtain ⟨m, -, h2⟩ := bind_ok h2
  obtain ⟨c1, c2, c3⟩ := missing_calcAux C _ k body h1
  have hs : GoSized body := by
    refine ⟨by rw [c2]; exact hf.inputs, by rw [c1]; exact hf.outputs, by rw [c2]; exact hf.hashes, by rw [c1]; exact hf.addrs, ?_⟩
    rcases c3 with c3 | ⟨m, c3⟩
    · rw [c3]; exact hf.aux
    · rw [c3, h256]; decide
  have h4 : encArray [bb, Transaction.marshalWitness (Missing.view b h).witness, encBool (Missing.view b h).valid, m] = bs := by injection h2
  have h5 : encHead 0x80 (UInt64.ofNat 4) = [0x84] := by decide
  simp only [encArray, List.length_cons, List.length_nil, h5, List.flatten_cons] at h4
  obtain ⟨rest, hr⟩ : ∃ rest, bs = 0x84 :: (bb ++ rest) := ⟨_, h4.symm⟩
  rw [hr, unreadable body hs bb rest h3 o (by rw [c1]; exact ho) (by rw [e1]; exact ha)] at hv
  cases hv

/-- **C113** for `NewAddress`: whatever the text and whatever the decoder leaves behind. -/
theorem C113_ignored_error (C : Crypto) (h256 : ∀ m, (C.blake256 m).length = 32) (strict : Bool) (raw spare : Bytes) (left : ByronAddress) (a : Option Address)
    (hr : NewAddressBoth strict raw spare left = .ok (a, true)) (p : Protocol) (ks : List Bytes) (ops : List Missing.Op)
    (op : Missing.Op) (hop : op ∈ ops) (hp : PaysOptional a op) (hf : GoSized (Missing.run C (Missing.NewTxBuilder p ks) ops).body) (h : Handle) (k : Nat) (bs : Bytes)
    (hb : Missing.bytes C (Missing.view (Missing.run C (Missing.NewTxBuilder p ks) ops) h) k = .ok bs) (L : Ledger.Crypto) (e : Ledger.Env) (u : Ledger.UTxO) :
    ¬ Ledger.Valid L e u bs := by
  rcases C113_returned strict raw spare left a true _ (.inl ⟨hr, rfl⟩) with ⟨-, h1, -⟩ | ⟨h1, -⟩
  · exact C113_not_paid C h256 p ks ops a h1 op hop hp hf h k bs hb L e u
  · cases h1

/-- **C113, the builder alone.** Nothing is reported before: without metadata, and with keys that can sign, `Build` and `Bytes` succeed with outputs that have no address. -/
theorem C113_not_reported (C : Crypto) (b : Missing.Builder) (hm : b.metadata = none) (ho : ∀ o ∈ b.body.outputs, o.address = none ∨ ∃ a x, o.address = some a ∧ Transaction.marshalAddress a = .ok x)
    (hk : ∀ k ∈ b.xprvs, ∀ m, ∃ x y, C.publicKey k = .ok x ∧ C.sign k m = .ok y) :
    ∃ h b' bs, Missing.Build C b = (.ok h, b') ∧ ∀ k, Missing.bytes C (Missing.view b' h) k = .ok bs := by
  have hout : ∀ l : List Output, (∀ o ∈ l, o.address = none ∨ ∃ a x, o.address = some a ∧ Transaction.marshalAddress a = .ok x) →
      ∃ outs, Transaction.collect (l.map Missing.marshalOutput) = .ok outs := by
    intro l
    induction l with
    | nil => exact fun _ => ⟨_, rfl⟩
    | cons o l ih =>
      intro h
      obtain ⟨outs, e⟩ := ih fun o ho => h o (List.mem_cons_of_mem _ ho)
      have : ∃ x, Missing.marshalAddress o.address = .ok x := by
        rcases h o List.mem_cons_self with e | ⟨a, x, e, h⟩
        · rw [e]; exact ⟨_, rfl⟩
        · rw [e]; exact ⟨x, h⟩
      obtain ⟨x, hx⟩ := this
      refine ⟨encArray [x, encUint o.amount] :: outs, ?_⟩
      simp only [List.map_cons, Transaction.collect, Missing.marshalOutput, hx, e, Res.ok_bind]
      rfl
  obtain ⟨outs, e1⟩ := hout _ ho
  have hbody : ∃ bb, Missing.marshalBody b.body = .ok bb := by
    unfold Missing.marshalBody
    rw [e1]
    exact ⟨_, rfl⟩
  obtain ⟨bb, e2⟩ := hbody
  have e3 : Missing.calcAux C (Missing.tx b) b.clock = .ok b.body := by simp [Missing.calcAux, Missing.tx, hm]
  have e4 : Missing.hash C (Missing.tx b) b.clock = .ok (C.blake256 bb) := by
    unfold Missing.hash
    rw [e3]
    simp only [Res.ok_bind, e2]
    rfl
  have hws : ∀ ks : List Bytes, (∀ k ∈ ks, ∀ m, ∃ x y, C.publicKey k = .ok x ∧ C.sign k m = .ok y) → ∃ ws, TxBuilder.witnessesOf C (C.blake256 bb) ks = .ok ws := by
    intro ks
    induction ks with
    | nil => exact fun _ => ⟨_, rfl⟩
    | cons k ks ih =>
      intro h
      obtain ⟨ws, e⟩ := ih fun k hk => h k (List.mem_cons_of_mem _ hk)
      obtain ⟨x, y, h1, h2⟩ := h k List.mem_cons_self (C.blake256 bb)
      refine ⟨⟨x, y⟩ :: ws, ?_⟩
      simp only [TxBuilder.witnessesOf, TxBuilder.witnessOf, h1, h2, e, Res.ok_bind]
      rfl
  obtain ⟨ws, e5⟩ := hws _ hk
  have e6 : (Missing.afterAux C (Missing.tx b) b.clock).body = b.body := by unfold Missing.afterAux; rw [e3]
  refine ⟨⟨b.wits.length, b.valid, none⟩, { b with wits := b.wits ++ [ws], wit := b.wits.length, clock := b.clock + 1 },
    encArray [bb, Transaction.marshalWitness ws, encBool b.valid, encNil], ?_, fun k => ?_⟩
  · unfold Missing.Build
    rw [e4, e6]
    dsimp only
    rw [e5, hm]
  · simp only [Missing.bytes, Missing.calcAux, Missing.view, Missing.marshalTx, e2, Missing.witAt, Transaction.marshalMetadata, Res.ok_bind]
    have : (b.wits ++ [ws]).getD b.wits.length [] = ws := by simp
    rw [this]
    rfl

/-! ### Cases -/

/-- A text with one character too few: `NewAddress` returns nil and an error. -/
example (left : ByronAddress) : NewAddressBoth true (TxBuilder.dummyAddrString.take 107) [] left = .ok (none, true) := by
  have h1 : (Addr.hasPrefix (TxBuilder.dummyAddrString.take 107) (asc ['a','d','d','r']) || Addr.hasPrefix (TxBuilder.dummyAddrString.take 107) (asc ['s','t','a','k','e'])) = true := by
    decide +kernel
  have h2 : (match Bech32.Decode (TxBuilder.dummyAddrString.take 107) with | .err _ => true | _ => false) = true := by decide +kernel
  unfold NewAddressBoth
  rw [if_pos h1]
  generalize Bech32.Decode (TxBuilder.dummyAddrString.take 107) = r at h2 ⊢
  cases r with
  | err m => rfl
  | _ => cases h2

/-- The caller ignores the error and pays. The transaction is built; the address in it is null (f6). -/
example : (Missing.bytes ⟨fun _ => [], .ok, fun _ => .ok⟩ (Missing.tx (Missing.Build ⟨fun _ => [], .ok, fun _ => .ok⟩
      (Missing.run ⟨fun _ => [], .ok, fun _ => .ok⟩ (Missing.NewTxBuilder ⟨44, 155381, 16384, 1000000⟩ [])
        [.addInputs [⟨List.replicate 32 1, 0, 5000000⟩], .addOutputs [⟨none, 1000000⟩], .setTTL 100])).2) 0) =
    .ok ([0x84, 0xa4, 0x00, 0x81, 0x82, 0x58, 0x20] ++ List.replicate 32 1 ++
      [0x00, 0x01, 0x81, 0x82, 0xf6, 0x1a, 0x00, 0x0f, 0x42, 0x40, 0x02, 0x00, 0x03, 0x18, 0x64, 0xa0, 0xf5, 0xf6]) := by decide +kernel

/-- The hypotheses of `C113_not_paid` for change to no address, with any cryptography. -/
example (C : Crypto) : PaysOptional none (.addChange none) ∧ Leftover none ∧
    GoSized (Missing.run C (Missing.NewTxBuilder ⟨44, 155381, 16384, 1000000⟩ []) [.addInputs [⟨List.replicate 32 1, 0, 5000000⟩], .addChange none]).body :=
  ⟨rfl, .inl rfl, ⟨by show (1 : Nat) < _; decide, by show (1 : Nat) < _; decide, fun i hi => (by
    have : i = ⟨List.replicate 32 1, 0, 5000000⟩ := List.mem_singleton.1 hi
    rw [this]; decide), fun o ho a e => (by
    have : o.address = none := congrArg Output.address (List.mem_singleton.1 ho)
    rw [this] at e; cases e), by show (0 : Nat) < _; decide⟩⟩

end Cardano.Props
