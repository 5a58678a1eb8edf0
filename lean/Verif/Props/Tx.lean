import Verif.Tx.Lemmas
import Verif.Tx.Golden
import Verif.Props.Address
/-!
# Properties C17, C18, C19, C26, C27, C30, C31: transactions
-/
set_option autoImplicit false

namespace Cardano.Props
open Cbor TxSpec Transaction Addr Cardano.Spec

/-! ### C17 -/

/-- **C17.** Whenever `Bytes` succeeds, an RFC 8949 reader accepts the whole output as one item, the transaction array, with
the inputs, outputs, fee, ttl, witnesses and flag of the transaction; without metadata the fourth element is null and
the auxiliary data hash is the one in the body, with metadata the fourth element is the item the metadata encodes to
and the hash is the one of a metadata encoding. -/
theorem C17_bytes_wellformed (C : Crypto) (hH : ∀ m, (C.blake256 m).length = 32) (t : Tx) (k : Nat) (bs : Bytes)
    (hb : BodyFits t.body) (hw : WitnessFits t.witness) (h : Transaction.bytes C t k = .ok bs)
    (hmd : ∀ md, t.metadata = some md → ∀ b, md.enc (k + 1) = .ok b → ∃ x, parse b = some x) :
    ∃ aux x, parse bs = some (txItem { t.body with auxHash := aux } t.witness t.valid x) ∧
      (t.metadata = none → x = .simple 22 ∧ aux = t.body.auxHash) ∧
      (∀ md, t.metadata = some md → ∃ b1 b2, md.enc k = .ok b1 ∧ md.enc (k + 1) = .ok b2 ∧
        aux = C.blake256 b1 ∧ parse b2 = some x) := by
  obtain ⟨body, hc, h⟩ := bind_ok h
  cases hm : t.metadata with
  | none =>
    have hc' : t.body = body := by unfold calcAux at hc; rw [hm] at hc; injection hc
    subst hc'
    have hx : parse encNil = some (.simple 22) := rfl
    have := tx_enc { t with body := t.body } (k + 1) bs hb hw h encNil (by simp only [hm]; rfl) _ hx
    exact ⟨t.body.auxHash, .simple 22, this.parse, fun _ => ⟨rfl, rfl⟩, fun md e => by cases e⟩
  | some md =>
    have hc' : ∃ b1, md.enc k = .ok b1 ∧ body = { t.body with auxHash := C.blake256 b1 } := by
      unfold calcAux at hc; rw [hm] at hc
      cases e : md.enc k with
      | ok b1 => simp only [e] at hc; injection hc with hc; exact ⟨b1, rfl, hc.symm⟩
      | err m => simp only [e] at hc; cases hc
      | panic => simp only [e] at hc; cases hc
    obtain ⟨b1, hb1, rfl⟩ := hc'
    obtain ⟨_, m, _, hm2, _⟩ := marshalTx_parts _ _ _ h
    have hm3 : md.enc (k + 1) = .ok m := by simp only [hm] at hm2; exact hm2
    obtain ⟨x, hx⟩ := hmd md hm m hm3
    have hb' : BodyFits { t.body with auxHash := C.blake256 b1 } :=
      ⟨hb.inputs, hb.outputs, hb.hashes, hb.addrs, by simp only [hH]; decide⟩
    have := tx_enc { t with body := { t.body with auxHash := C.blake256 b1 } } (k + 1) bs hb' hw h m hm2 x hx
    refine ⟨C.blake256 b1, x, this.parse, fun e => (by cases e), fun md' e => ?_⟩
    injection e with e
    subst e
    exact ⟨b1, m, hb1, hm3, rfl, hx⟩

/-! ### C18 -/

theorem map_inj_of {α β γ : Type} (f : α → β) (g : α → γ) (l l' : List α) (h : l.map f = l'.map f)
    (hfg : ∀ x y, f x = f y → g x = g y) : l.map g = l'.map g := by
  induction l generalizing l' with
  | nil => cases l' with
    | nil => rfl
    | cons _ _ => cases h
  | cons x l ih =>
    cases l' with
    | nil => cases h
    | cons y l' =>
      injection h with h1 h2
      simp only [List.map_cons]
      rw [hfg _ _ h1, ih l' h2]

theorem addressItem_inj (a a' : Address) (h : addressItem a = addressItem a') : Addr.bytes a = Addr.bytes a' := by
  have key : ∀ b b' : ByronAddress, addressItem (.byron b) = addressItem (.byron b') → Addr.bytes (.byron b) = Addr.bytes (.byron b') := by
    intro b b' h
    injection h with h; injection h with h h2; injection h with _ h; injection h with h
    show Byron.bytes b = Byron.bytes b'
    unfold Byron.bytes
    rw [h]
  cases a <;> cases a' <;> first
    | exact key _ _ h
    | (injection h)

theorem inputItem_inj (i j : TxInput) (h : inputItem i = inputItem j) : (i.txHash, i.index) = (j.txHash, j.index) := by
  injection h with h; injection h with h1 h2; injection h1 with h1; injection h2 with h2 _; injection h2 with h2
  rw [h1, UInt16.toNat_inj.1 h2]

theorem outputItem_inj (o o' : TxOutput) (h : outputItem o = outputItem o') :
    (Addr.bytes o.address, o.amount) = (Addr.bytes o'.address, o'.amount) := by
  injection h with h; injection h with h1 h2; injection h2 with h2 _; injection h2 with h2
  rw [addressItem_inj _ _ h1, UInt64.toNat_inj.1 h2]

theorem bodyItem_inj (b b' : TxBody) (h : bodyItem b = bodyItem b') :
    b.inputs.map (fun i => (i.txHash, i.index)) = b'.inputs.map (fun i => (i.txHash, i.index)) ∧
    b.outputs.map (fun o => (Addr.bytes o.address, o.amount)) = b'.outputs.map (fun o => (Addr.bytes o.address, o.amount)) ∧
    b.fee = b'.fee ∧ b.ttl = b'.ttl ∧ b.auxHash = b'.auxHash := by
  unfold bodyItem at h
  simp only [List.cons_append, List.nil_append] at h
  injection h with h
  injection h with _ h; injection h with h1 h
  injection h with _ h; injection h with h2 h
  injection h with _ h; injection h with h3 h
  injection h1 with h1; injection h2 with h2; injection h3 with h3
  refine ⟨map_inj_of _ _ _ _ h1 inputItem_inj, map_inj_of _ _ _ _ h2 outputItem_inj, UInt64.toNat_inj.1 h3, ?_⟩
  by_cases c1 : b.ttl = 0 <;> by_cases c1' : b'.ttl = 0 <;> by_cases c2 : b.auxHash = [] <;> by_cases c2' : b'.auxHash = [] <;>
    simp only [c1, c1', c2, c2', if_true, if_false, List.nil_append, List.append_nil, List.cons_append, List.cons.injEq,
      Item.uint.injEq, Item.bytes.injEq, List.nil_eq, reduceCtorEq, and_true, true_and, and_false] at h ⊢
  all_goals first
    | exact absurd h.1 (by decide)
    | exact ⟨UInt32.toNat_inj.1 h.1, h.2⟩
    | exact ⟨UInt32.toNat_inj.1 h.1, trivial⟩
    | (simp only [h])
    | (simp only [UInt32.toNat_inj.1 h.1, h.2, and_self])
    | (exact UInt32.toNat_inj.1 h)
    | (exact ⟨UInt32.toNat_inj.1 h, trivial⟩)
    | omega

theorem witnessItem_inj (ws ws' : List VKeyWitness) (h : witnessItem ws = witnessItem ws') : ws = ws' := by
  unfold witnessItem at h
  injection h with h
  by_cases c : ws = [] <;> by_cases c' : ws' = []
  · rw [c, c']
  · rw [if_pos c, if_neg c'] at h; cases h
  · rw [if_neg c, if_pos c'] at h; cases h
  · rw [if_neg c, if_neg c'] at h
    injection h with _ h; injection h with h _; injection h with h
    have := map_inj_of _ id _ _ h (fun x y e => by
      injection e with e; injection e with e1 e2; injection e1 with e1; injection e2 with e2 _; injection e2 with e2
      cases x; cases y; simp only at e1 e2; subst e1 e2; rfl)
    simpa using this

/-- **C18.** Two transactions that serialise to the same bytes have the same inputs (hash and index), the same output address
bytes and amounts, fee, ttl, auxiliary data hash, witnesses, flag and metadata encoding (the last two lines: also when only one of them has metadata). -/
theorem C18_bytes_injective (C : Crypto) (hH : ∀ m, (C.blake256 m).length = 32) (t t' : Tx) (k k' : Nat) (bs : Bytes)
    (hb : BodyFits t.body) (hw : WitnessFits t.witness) (hb' : BodyFits t'.body) (hw' : WitnessFits t'.witness)
    (h : Transaction.bytes C t k = .ok bs) (h' : Transaction.bytes C t' k' = .ok bs) :
    t.body.inputs.map (fun i => (i.txHash, i.index)) = t'.body.inputs.map (fun i => (i.txHash, i.index)) ∧
    t.body.outputs.map (fun o => (Addr.bytes o.address, o.amount)) = t'.body.outputs.map (fun o => (Addr.bytes o.address, o.amount)) ∧
    t.body.fee = t'.body.fee ∧ t.body.ttl = t'.body.ttl ∧ t.witness = t'.witness ∧ t.valid = t'.valid ∧
    (t.metadata = none → t'.metadata = none → t.body.auxHash = t'.body.auxHash) ∧
    (∀ m m', t.metadata = some m → t'.metadata = some m' → m.enc (k + 1) = m'.enc (k' + 1)) ∧
    (afterAux C t k).body.auxHash = (afterAux C t' k').body.auxHash ∧ marshalMetadata t.metadata (k + 1) = marshalMetadata t'.metadata (k' + 1) := by
  have aux : ∀ (t : Tx) (k : Nat) (bs : Bytes), BodyFits t.body → WitnessFits t.witness → Transaction.bytes C t k = .ok bs →
      ∃ a b m, (afterAux C t k).body.auxHash = a ∧ BodyFits { t.body with auxHash := a } ∧ marshalBody { t.body with auxHash := a } = .ok b ∧
        marshalMetadata t.metadata (k + 1) = .ok m ∧
        bs = 0x84 :: (b ++ marshalWitness t.witness ++ encBool t.valid ++ m) ∧ (t.metadata = none → a = t.body.auxHash) := by
    intro t k bs hb hw h
    obtain ⟨body, hc, h⟩ := bind_ok h
    obtain ⟨b, m, h1, h2, h3⟩ := marshalTx_parts _ _ _ h
    have haf : (afterAux C t k).body = body := by simp only [afterAux, hc]
    have : ∃ a, body = { t.body with auxHash := a } ∧ a.length < 2 ^ 63 ∧ (t.metadata = none → a = t.body.auxHash) := by
      clear haf
      unfold calcAux at hc
      cases hm : t.metadata with
      | none => rw [hm] at hc; injection hc with hc; exact ⟨t.body.auxHash, hc.symm, hb.aux, fun _ => rfl⟩
      | some md =>
        rw [hm] at hc
        cases e : md.enc k with
        | ok b1 => simp only [e] at hc; injection hc with hc
                   exact ⟨C.blake256 b1, hc.symm, by rw [hH]; decide, fun e => by cases e⟩
        | err m => simp only [e] at hc; cases hc
        | panic => simp only [e] at hc; cases hc
    obtain ⟨a, rfl, ha, ha'⟩ := this
    exact ⟨a, b, m, by rw [haf], ⟨hb.inputs, hb.outputs, hb.hashes, hb.addrs, ha⟩, h1, h2, h3, ha'⟩
  obtain ⟨a, b, m, g1, f1, m1, d1, e1, n1⟩ := aux t k bs hb hw h
  obtain ⟨a', b', m', g2, f2, m2, d2, e2, n2⟩ := aux t' k' bs hb' hw' h'
  rw [e1] at e2
  injection e2 with _ e
  simp only [List.append_assoc] at e
  obtain ⟨i1, e⟩ := Enc.inj (body_enc _ f1 _ m1) (body_enc _ f2 _ m2) _ _ e
  obtain ⟨i2, e⟩ := Enc.inj (witness_enc _ hw) (witness_enc _ hw') _ _ e
  obtain ⟨i3, e⟩ := Enc.inj (enc_bool _) (enc_bool _) _ _ e
  obtain ⟨j1, j2, j3, j4, j5⟩ := bodyItem_inj _ _ i1
  refine ⟨j1, j2, j3, j4, witnessItem_inj _ _ i2, ?_, fun x y => ?_, fun x y hx hy => ?_, g1.trans (Eq.trans j5 g2.symm), d1.trans ((congrArg Res.ok e).trans d2.symm)⟩
  · injection i3 with i3
    cases hv : t.valid <;> cases hv' : t'.valid <;> first | rfl | (rw [hv, hv'] at i3; simp at i3)
  · rw [← n1 x, ← n2 y]; exact j5
  · rw [hx] at d1; rw [hy] at d2
    exact d1.trans ((congrArg Res.ok e).trans d2.symm)

/-! ### C19 -/

/-- **C19.** `Fee` succeeds exactly when `Bytes` does, with the linear formula on the number of bytes. -/
theorem C19_fee_linear (C : Crypto) (l : LinearFee) (t : Tx) (k : Nat) :
    (∀ bs, Transaction.bytes C t k = .ok bs → fee C l t k = .ok (l.txFeeFixed + l.txFeePerByte * UInt64.ofNat bs.length)) ∧
    (∀ f, fee C l t k = .ok f → ∃ bs, Transaction.bytes C t k = .ok bs) ∧
    (∀ m, Transaction.bytes C t k = .err m → fee C l t k = .err m) := by
  unfold fee Transaction.bytes
  cases calcAux C t k with
  | ok b =>
    simp only [Res.ok_bind]
    cases marshalTx { t with body := b } (k + 1) with
    | ok bs => exact ⟨fun _ e => by injection e with e; rw [← e]; rfl, fun _ _ => ⟨_, rfl⟩, fun _ e => by cases e⟩
    | err m => exact ⟨fun _ e => (by cases e), fun _ e => (by cases e), fun _ e => by injection e with e; rw [e]; rfl⟩
    | panic => exact ⟨fun _ e => (by cases e), fun _ e => (by cases e), fun _ e => by cases e⟩
  | err m => exact ⟨fun _ e => (by cases e), fun _ e => (by cases e), fun _ e => by injection e with e; rw [e]; rfl⟩
  | panic => exact ⟨fun _ e => (by cases e), fun _ e => (by cases e), fun _ e => by cases e⟩

/-- The formula holds as exact integers when it does not exceed 64 bits. -/
theorem C19_fee_exact (C : Crypto) (l : LinearFee) (t : Tx) (k : Nat) (bs : Bytes) (h : Transaction.bytes C t k = .ok bs)
    (hov : l.txFeeFixed.toNat + l.txFeePerByte.toNat * bs.length < 2 ^ 64) (hlen : bs.length < 2 ^ 63) :
    ∃ f, fee C l t k = .ok f ∧ f.toNat = l.txFeeFixed.toNat + l.txFeePerByte.toNat * bs.length := by
  refine ⟨_, (C19_fee_linear C l t k).1 bs h, ?_⟩
  rw [UInt64.toNat_add, UInt64.toNat_mul, ofNat64 _ (by omega)]
  have : l.txFeePerByte.toNat * bs.length < 2 ^ 64 := by omega
  rw [Nat.mod_eq_of_lt this, Nat.mod_eq_of_lt hov]

/-! ### C26 -/

theorem calcAux_det (C : Crypto) (t : Tx) (hd : Deterministic t.metadata) (k k' : Nat) : calcAux C t k = calcAux C t k' := by
  unfold calcAux
  cases hm : t.metadata with
  | none => rfl
  | some m => simp only [hd m hm k k']

/-- **C26.** With metadata that is encoded deterministically: `Hash` is the blake2b-256 of exactly the bytes that form the first
element of the array returned by `Bytes`. -/
theorem C26_hash_is_hash_of_body (C : Crypto) (hH : ∀ m, (C.blake256 m).length = 32) (t : Tx) (k k' : Nat) (bs : Bytes)
    (hb : BodyFits t.body) (hd : Deterministic t.metadata) (h : Transaction.bytes C t k' = .ok bs) :
    ∃ body rest x, bs = 0x84 :: (body ++ rest) ∧ parse body = some x ∧ parseFirst (body ++ rest) = some (x, rest) ∧
      Transaction.hash C t k = .ok (C.blake256 body) := by
  obtain ⟨b, hc, h⟩ := bind_ok h
  obtain ⟨body, m, h1, h2, h3⟩ := marshalTx_parts _ _ _ h
  have hf : BodyFits b := by
    unfold calcAux at hc
    cases hm : t.metadata with
    | none => rw [hm] at hc; injection hc with hc; rw [← hc]; exact hb
    | some md =>
      rw [hm] at hc
      cases e : md.enc k' with
      | ok b1 => simp only [e] at hc; injection hc with hc; rw [← hc]
                 exact ⟨hb.inputs, hb.outputs, hb.hashes, hb.addrs, by simp only [hH]; decide⟩
      | err m => simp only [e] at hc; cases hc
      | panic => simp only [e] at hc; cases hc
  have he := body_enc _ hf _ h1
  refine ⟨body, marshalWitness t.witness ++ (encBool t.valid ++ m), _, by rw [h3]; simp only [List.append_assoc], he.parse, he.parseFirst _, ?_⟩
  unfold Transaction.hash
  rw [calcAux_det C t hd k k', hc]
  show ((marshalBody b) >>= fun x => pure (C.blake256 x)) = _
  have h1' : marshalBody b = .ok body := h1
  rw [h1']; rfl

/-- The transaction id does not depend on witnesses or validity flag. -/
theorem C26_hash_ignores_witnesses (C : Crypto) (t : Tx) (k : Nat) (ws : List VKeyWitness) (v : Bool) :
    Transaction.hash C { t with witness := ws, valid := v } k = Transaction.hash C t k := by
  unfold Transaction.hash calcAux
  cases t.metadata with
  | none => rfl
  | some m => rfl

/-! ### C27 -/

/-- **C27 (partial).** If the two encoder calls made by `Bytes` agree, the auxiliary data hash in the body is the hash of the bytes
of the fourth element. Missing: the calls need not agree, see `C27_map_order_breaks_hash`. -/
theorem C27_aux_hash_partial (C : Crypto) (hH : ∀ m, (C.blake256 m).length = 32) (t : Tx) (k : Nat) (bs : Bytes) (md : Metadata)
    (hm : t.metadata = some md) (hdet : md.enc k = md.enc (k + 1)) (hb : BodyFits t.body) (hw : WitnessFits t.witness)
    (h : Transaction.bytes C t k = .ok bs) (hx : ∀ b, md.enc (k + 1) = .ok b → ∃ x, parse b = some x) :
    ∃ b x, parse b = some x ∧ (∃ front, bs = front ++ b) ∧
      parse bs = some (txItem { t.body with auxHash := C.blake256 b } t.witness t.valid x) := by
  obtain ⟨aux, x, h1, _, h2⟩ := C17_bytes_wellformed C hH t k bs hb hw h (fun md' e => by
    rw [hm] at e; injection e with e; subst e; exact hx)
  obtain ⟨b1, b2, e1, e2, e3, e4⟩ := h2 md hm
  have : b1 = b2 := by rw [hdet, e2] at e1; injection e1 with e1; exact e1.symm
  subst this
  obtain ⟨body, _, h⟩ := bind_ok h
  obtain ⟨b, m, _, g2, g3⟩ := marshalTx_parts _ _ _ h
  have : m = b1 := by
    simp only [hm, marshalMetadata] at g2
    rw [e2] at g2; injection g2 with g2; exact g2.symm
  subst this
  refine ⟨m, x, e4, ⟨0x84 :: (b ++ marshalWitness t.witness ++ encBool t.valid), by rw [g3]; simp⟩, ?_⟩
  rw [h1, e3]

/-- A Go map with the entries 1 -> 1 and 2 -> 2, whose iteration order differs between calls. -/
def twoOrders : Metadata := ⟨fun k => if k % 2 = 0 then .ok [0xa2, 1, 1, 2, 2] else .ok [0xa2, 2, 2, 1, 1]⟩

/-- **C27 is false**: with map metadata the two encoder calls of `Bytes` may write the entries in different orders; then
the hash in the body is not the hash of the metadata that follows it (unless the two orders collide under the hash). -/
theorem C27_map_order_breaks_hash (C : Crypto) (hH : ∀ m, (C.blake256 m).length = 32)
    (hC : C.blake256 [0xa2, 1, 1, 2, 2] ≠ C.blake256 [0xa2, 2, 2, 1, 1]) :
    ∃ t bs aux x md, Transaction.bytes C t 0 = .ok bs ∧ parse bs = some (txItem { t.body with auxHash := aux } t.witness t.valid x) ∧
      parse md = some x ∧ (∃ front, bs = front ++ md) ∧ aux ≠ C.blake256 md := by
  let t : Tx := ⟨⟨[], [], 0, 0, []⟩, [], true, some twoOrders⟩
  have hp : parse [0xa2, 2, 2, 1, 1] = some (.map [.uint 2, .uint 2, .uint 1, .uint 1]) := rfl
  obtain ⟨bs, hbs⟩ : ∃ bs, Transaction.bytes C t 0 = .ok bs := ⟨_, rfl⟩
  have hbody : BodyFits t.body := ⟨by simp [t], by simp [t], by simp [t], by simp [t], by simp [t]⟩
  have hwit : WitnessFits t.witness := ⟨by simp [t], by simp [t]⟩
  have hmd : ∀ md, t.metadata = some md → ∀ b, md.enc (0 + 1) = .ok b → ∃ x, parse b = some x := by
    intro md e b hb
    injection e with e; subst e
    have : ([0xa2, 2, 2, 1, 1] : Bytes) = b := by injection hb
    subst this; exact ⟨_, hp⟩
  obtain ⟨aux, x, h1, _, h2⟩ := C17_bytes_wellformed C hH t 0 bs hbody hwit hbs hmd
  obtain ⟨b1, b2, e1, e2, e3, e4⟩ := h2 twoOrders rfl
  have hb1 : ([0xa2, 1, 1, 2, 2] : Bytes) = b1 := by injection e1
  have hb2 : ([0xa2, 2, 2, 1, 1] : Bytes) = b2 := by injection e2
  subst hb1 hb2
  obtain ⟨body, _, h⟩ := bind_ok hbs
  obtain ⟨b, m, _, g2, g3⟩ := marshalTx_parts _ _ _ h
  have : ([0xa2, 2, 2, 1, 1] : Bytes) = m := by injection g2
  subst this
  exact ⟨t, bs, aux, x, _, hbs, h1, e4, ⟨0x84 :: (b ++ marshalWitness t.witness ++ encBool t.valid), by rw [g3]; simp⟩, by rw [e3]; exact hC⟩

/-- **C27 is false** also for a stale hash: when the metadata of a transaction is removed after its hash was computed, `Bytes`
still writes the old hash, with null metadata. -/
theorem C27_stale_hash (C : Crypto) (hH : ∀ m, (C.blake256 m).length = 32) (t : Tx) (md : Metadata) (b : Bytes) (k k' : Nat) (bs : Bytes)
    (hm : t.metadata = some md) (hb : md.enc k = .ok b) (hbody : BodyFits t.body) (hw : WitnessFits t.witness)
    (h : Transaction.bytes C { afterAux C t k with metadata := none } k' = .ok bs) :
    parse bs = some (txItem { t.body with auxHash := C.blake256 b } t.witness t.valid (.simple 22)) := by
  have e : afterAux C t k = { t with body := { t.body with auxHash := C.blake256 b } } := by
    unfold afterAux calcAux; rw [hm]; simp only [hb]
  rw [e] at h
  obtain ⟨aux, x, h1, h2, _⟩ := C17_bytes_wellformed C hH
    { t with body := { t.body with auxHash := C.blake256 b }, metadata := none } k' bs
    ⟨hbody.inputs, hbody.outputs, hbody.hashes, hbody.addrs, by simp only [hH]; decide⟩ hw h (fun _ e => by cases e)
  obtain ⟨h3, h4⟩ := h2 rfl
  rw [h1, h3, h4]

/-! ### C30 -/

/-- **C30 (partial).** An output to a base, enterprise or pointer address always serialises, as a two-element array whose first
element is the byte string `address.Bytes()`. Missing: Byron and reward addresses, for which it is false. -/
theorem C30_output_address_partial (o : TxOutput) (hf : (Addr.bytes o.address).length < 2 ^ 63)
    (hnb : ∀ b, o.address ≠ .byron b) (hnr : ∀ n c, o.address ≠ .reward n c) :
    ∃ b, marshalOutput o = .ok b ∧ parse b = some (.array [.bytes (Addr.bytes o.address), .uint o.amount.toNat]) := by
  obtain ⟨a, am⟩ := o
  have key : ∀ a : Address, AddressFits a → addressItem a = .bytes (Addr.bytes a) → (∃ b, marshalAddress a = .ok b) →
      ∃ b, marshalOutput ⟨a, am⟩ = .ok b ∧ parse b = some (.array [.bytes (Addr.bytes a), .uint am.toNat]) := by
    intro a hf hi ⟨b, hb⟩
    have : marshalOutput ⟨a, am⟩ = .ok (encArray [b, encUint am]) := by
      unfold marshalOutput; simp only [hb, Res.ok_bind]; rfl
    refine ⟨_, this, ?_⟩
    have := (output_enc ⟨a, am⟩ hf _ this).parse
    rw [this]; unfold outputItem; rw [hi]
  cases a with
  | base n p s => exact key _ hf rfl ⟨_, rfl⟩
  | enterprise n p => exact key _ hf rfl ⟨_, rfl⟩
  | pointer n p s => exact key _ hf rfl ⟨_, rfl⟩
  | reward n s => exact absurd rfl (hnr n s)
  | byron b => exact absurd rfl (hnb b)

/-- **C30 is false for Byron addresses**: the first element is an array, never a byte string. -/
theorem C30_byron_not_bytestring (b : ByronAddress) (am : UInt64) (hb : ByronOk b) (hs : b.attributes.payload.length < 2 ^ 62) :
    ∃ bs xs, marshalOutput ⟨.byron b, am⟩ = .ok bs ∧ parse bs = some (.array [.array xs, .uint am.toNat]) := by
  refine ⟨_, [.tag 24 (.bytes (Byron.rawBytes b)), .uint (Crc32.checksum (Byron.rawBytes b)).toNat], rfl, ?_⟩
  · have := (output_enc ⟨.byron b, am⟩ ⟨by rw [hb.1]; decide, hs⟩ _ rfl).parse
    exact this

theorem collect_not_ok (l : List TxOutput) (n : NetworkInfo) (c : Cred) (o : TxOutput) (ho : o ∈ l) (ha : o.address = .reward n c) :
    ∀ bs, collect (l.map marshalOutput) ≠ .ok bs := by
  intro bs h
  induction l generalizing bs with
  | nil => cases ho
  | cons x l ih =>
    obtain ⟨b, hb, h⟩ := bind_ok h
    obtain ⟨bs', hbs, _⟩ := bind_ok h
    rcases List.mem_cons.1 ho with rfl | ho
    · obtain ⟨a, hx, _⟩ := bind_ok hb
      rw [ha] at hx; cases hx
    · exact ih ho _ hbs

theorem marshalBody_reward (b : TxBody) (o : TxOutput) (ho : o ∈ b.outputs) (n : NetworkInfo) (c : Cred)
    (ha : o.address = .reward n c) : ∀ bs, marshalBody b ≠ .ok bs := by
  intro bs h
  obtain ⟨outs, hc, _⟩ := bind_ok h
  exact collect_not_ok _ n c o ho ha _ hc

theorem calcAux_outputs (C : Crypto) (t : Tx) (k : Nat) (b : TxBody) (h : calcAux C t k = .ok b) :
    b.inputs = t.body.inputs ∧ b.outputs = t.body.outputs ∧ b.fee = t.body.fee ∧ b.ttl = t.body.ttl := by
  unfold calcAux at h
  cases hm : t.metadata with
  | none => rw [hm] at h; injection h with h; rw [← h]; exact ⟨rfl, rfl, rfl, rfl⟩
  | some md =>
    rw [hm] at h
    cases e : md.enc k with
    | ok b1 => simp only [e] at h; injection h with h; rw [← h]; exact ⟨rfl, rfl, rfl, rfl⟩
    | err m => simp only [e] at h; cases h
    | panic => simp only [e] at h; cases h

/-- **C30 is false for reward addresses**: a transaction with an output to a reward address never serialises; `Bytes`, `Hash` and
`Fee` all fail. -/
theorem C30_reward_never_serialises (C : Crypto) (l : LinearFee) (t : Tx) (k : Nat) (o : TxOutput) (ho : o ∈ t.body.outputs) (n : NetworkInfo)
    (c : Cred) (ha : o.address = .reward n c) :
    (∀ bs, Transaction.bytes C t k ≠ .ok bs) ∧ (∀ h, Transaction.hash C t k ≠ .ok h) ∧ (∀ f, fee C l t k ≠ .ok f) := by
  have h1 : ∀ bs, Transaction.bytes C t k ≠ .ok bs := by
    intro bs h
    obtain ⟨b, hc, h⟩ := bind_ok h
    obtain ⟨body, _, h1, _⟩ := marshalTx_parts _ _ _ h
    exact marshalBody_reward b o (by rw [(calcAux_outputs C t k b hc).2.1]; exact ho) n c ha _ h1
  refine ⟨h1, fun h hh => ?_, fun f hf => ?_⟩
  · obtain ⟨b, hc, hh⟩ := bind_ok hh
    obtain ⟨body, h1, _⟩ := bind_ok hh
    exact marshalBody_reward b o (by rw [(calcAux_outputs C t k b hc).2.1]; exact ho) n c ha _ h1
  · obtain ⟨bs, hbs⟩ := (C19_fee_linear C l t k).2.1 f hf
    exact h1 bs hbs

/-! ### C31 -/

/-- **C31 (partial).** A hexadecimal string is stored as the bytes it denotes, index and amount unchanged. Missing: malformed
strings are accepted too, see `C31_malformed_hex_accepted`. -/
theorem C31_hash_kept_partial (s b : Bytes) (h : IsHexOf s b) (ix : UInt16) (am : UInt64) :
    NewTxInput s ix am = ⟨b, ix, am⟩ := by
  unfold NewTxInput
  rw [hex_decode_of h]

/-- **C31 is false**: for every string whose first two characters are not hexadecimal digits, `NewTxInput` silently produces
an input with the empty transaction hash, so all such strings are confused. -/
theorem C31_malformed_hex_accepted (c d : UInt8) (s : Bytes) (hc : hexVal c = none) (ix : UInt16) (am : UInt64) :
    NewTxInput (c :: d :: s) ix am = ⟨[], ix, am⟩ ∧ ¬ ∃ b, IsHexOf (c :: d :: s) b := by
  constructor
  · have : Hex.fromHexChar c = none := by
      rw [hexVal_eq, Option.map_eq_none_iff] at hc; exact hc
    unfold NewTxInput Hex.decode
    rw [this]
  · rintro ⟨b, h⟩
    cases h with
    | cons hc' _ _ _ => rw [hc] at hc'; cases hc'

/-- One digit is dropped silently: `NewTxInput` truncates odd-length strings. -/
theorem C31_odd_length_truncated (s b : Bytes) (h : IsHexOf s b) (c : UInt8) (ix : UInt16) (am : UInt64) :
    NewTxInput (s ++ [c]) ix am = NewTxInput s ix am := by
  unfold NewTxInput
  congr 1
  induction h with
  | nil => rfl
  | cons hc hd hx _ ih =>
    simp only [List.cons_append, Hex.decode]
    split
    · rw [ih]
    · rfl

end Cardano.Props
