import Verif.Props.Reorder
/-!
# C144: witnesses made separately and collected

Several parties hold keys. Each makes the transaction for itself, or receives its parts, signs its own copy, and hands over its witnesses only.
-/
set_option autoImplicit false

namespace Cardano.Props
open Cbor TxSpec Transaction TxBuilder Addr Bip32
open Ledger (read refOf outOf witOf Env UTxO)

/-- The same transaction up to signatures: inputs, outputs, fee, time to live and metadata are the same. The hash of the metadata is renewed by every call; without metadata the
field must be the same. -/
structure CopyOf (t t' : Tx) : Prop where
  inputs : t'.body.inputs = t.body.inputs
  outputs : t'.body.outputs = t.body.outputs
  fee : t'.body.fee = t.body.fee
  ttl : t'.body.ttl = t.body.ttl
  metadata : t'.metadata = t.metadata
  aux : t.metadata = none → t'.body.auxHash = t.body.auxHash

/-- One of those who sign: its keys, its copy of the transaction and the number of encoder calls so far, and the witnesses it hands over. -/
structure Party where
  keys : List Bytes
  copy : Tx
  calls : Nat
  witnesses : List VKeyWitness

/-- The party has signed its copy of `t` with proper keys. -/
structure Signed (C : Crypto) (t : Tx) (p : Party) : Prop where
  copy : CopyOf t p.copy
  keys : ∀ key ∈ p.keys, key.length = 96 ∧ leNat (key.take 32) < 2 ^ 255
  signs : ∃ r, ByHand.signWith C p.keys p.copy p.calls = .ok r ∧ r.1.witness = p.witnesses

theorem newTXWitness_self (l : List VKeyWitness) : ByHand.NewTXWitness l = l := by
  unfold ByHand.NewTXWitness
  split
  · exact (List.length_eq_zero_iff.1 (by assumption)).symm
  · rfl

/-- All copies have the same body when they are signed. -/
theorem copy_body (C : Crypto) (t t' : Tx) (h : CopyOf t t') (m : Bytes) (hm : ∀ k, marshalMetadata t.metadata k = .ok m) (k : Nat) :
    calcAux C t' k = .ok { t.body with auxHash := auxOf C t.metadata t.body.auxHash m } := by
  rw [calcAux_of C t' m k (by rw [h.metadata]; exact hm k)]
  have e : auxOf C t'.metadata t'.body.auxHash m = auxOf C t.metadata t.body.auxHash m := by
    rw [h.metadata]
    cases hc : t.metadata with
    | none => exact h.aux hc
    | some d => rfl
  rw [e]
  dsimp only
  rw [h.inputs, h.outputs, h.fee, h.ttl]

/-- **C144, the same id.** `Hash` gives the same for every copy, whenever it is called and whatever witnesses it has. -/
theorem C144_same_id (C : Crypto) (t t' : Tx) (h : CopyOf t t') (m : Bytes) (hm : ∀ k, marshalMetadata t.metadata k = .ok m) (k k' : Nat) :
    hash C t' k' = hash C t k := by
  unfold Transaction.hash
  rw [copy_body C t t' h m hm k', copy_body C t t ⟨rfl, rfl, rfl, rfl, rfl, fun _ => rfl⟩ m hm k]

/-- What a party hands over. -/
theorem signed_witnesses (C : Crypto) (t : Tx) (p : Party) (m : Bytes) (hm : ∀ k, marshalMetadata t.metadata k = .ok m) (h : Signed C t p) :
    ∃ body, marshalBody { t.body with auxHash := auxOf C t.metadata t.body.auxHash m } = .ok body ∧ witnessesOf C (C.blake256 body) p.keys = .ok p.witnesses := by
  obtain ⟨r, hr, hw⟩ := h.signs
  obtain ⟨hs, h1, hr1⟩ := bind_ok hr
  obtain ⟨ws, h2, hr2⟩ := bind_ok hr1
  unfold Transaction.hash at h1
  rw [copy_body C t p.copy h.copy m hm] at h1
  simp only [Res.ok_bind] at h1
  obtain ⟨body, h3, h4⟩ := bind_ok h1
  have h5 : C.blake256 body = hs := Res.ok.inj h4
  subst h5
  have h6 : (ByHand.setWitness (afterAux C p.copy p.calls) ws, p.calls + 1) = r := Res.ok.inj hr2
  subst h6
  refine ⟨body, h3, ?_⟩
  rw [h2, ← hw]
  exact congrArg Res.ok (newTXWitness_self ws).symm

/-- The bytes with collected witnesses. -/
theorem collected_bytes (C : Crypto) (t : Tx) (m : Bytes) (hm : ∀ k, marshalMetadata t.metadata k = .ok m) (ws : List VKeyWitness) (k : Nat) (bs : Bytes)
    (h : Transaction.bytes C (ByHand.setWitness t ws) k = .ok bs) :
    ∃ body, marshalBody { t.body with auxHash := auxOf C t.metadata t.body.auxHash m } = .ok body ∧
      bs = 0x84 :: (body ++ marshalWitness ws ++ encBool t.valid ++ m) := by
  unfold Transaction.bytes at h
  rw [copy_body C t (ByHand.setWitness t ws) ⟨rfl, rfl, rfl, rfl, rfl, fun _ => rfl⟩ m hm] at h
  simp only [Res.ok_bind] at h
  obtain ⟨body, m', h1, h2, h3⟩ := marshalTx_parts _ _ _ h
  have h2 : marshalMetadata t.metadata (k + 1) = .ok m' := h2
  rw [hm] at h2
  obtain rfl := Res.ok.inj h2
  refine ⟨body, h1, ?_⟩
  rw [h3]
  have : (ByHand.setWitness t ws).witness = ws := newTXWitness_self ws
  dsimp only
  rw [this]
  rfl

theorem collected_fits (C : Crypto) (hH : ∀ m, (C.blake256 m).length = 32) (t : Tx) (m : Bytes) (hf : BodyFits t.body) :
    BodyFits { t.body with auxHash := auxOf C t.metadata t.body.auxHash m } := by
  refine ⟨hf.inputs, hf.outputs, hf.hashes, hf.addrs, ?_⟩
  show (auxOf C t.metadata t.body.auxHash m).length < _
  cases t.metadata with
  | none => exact hf.aux
  | some d => show (C.blake256 m).length < _; rw [hH]; decide

/-- What the ledger finds. -/
theorem collected_read (C : Crypto) (hH : ∀ m, (C.blake256 m).length = 32) (t : Tx) (hf : BodyFits t.body) (m : Bytes) (x : Item)
    (hm : ∀ k, marshalMetadata t.metadata k = .ok m) (hx : parse m = some x) (ws : List VKeyWitness) (hw : WitnessFits ws) (k : Nat) (bs : Bytes)
    (h : Transaction.bytes C (ByHand.setWitness t ws) k = .ok bs) :
    ∃ body, marshalBody { t.body with auxHash := auxOf C t.metadata t.body.auxHash m } = .ok body ∧
      bs = 0x84 :: (body ++ marshalWitness ws ++ encBool t.valid ++ m) ∧
      read bs = Ledger.assemble bs.length (bodyItem { t.body with auxHash := auxOf C t.metadata t.body.auxHash m }) (witnessItem ws)
        (.simple (if t.valid then 21 else 20)) x body m := by
  obtain ⟨body, h1, h2⟩ := collected_bytes C t m hm ws k bs h
  have hr := Ledger.read_bytes _ ws t.valid body m x (collected_fits C hH t m hf) hw h1 hx
  rw [← h2] at hr
  exact ⟨body, h1, h2, hr⟩

/-- The witnesses of the parties have the proper sizes. -/
theorem signed_sizes (H : Hashes) (hH : H.Ok) (blake256 : Bytes → Bytes) (t : Tx) (m : Bytes) (hm : ∀ k, marshalMetadata t.metadata k = .ok m) (parties : List Party)
    (hp : ∀ p ∈ parties, Signed (packageCrypto H blake256) t p) (collected : List VKeyWitness) (hc : ∀ w ∈ collected, ∃ p ∈ parties, w ∈ p.witnesses) :
    ∀ w ∈ collected, w.vkey.length = 32 ∧ w.signature.length = 64 := by
  intro w hw
  obtain ⟨p, hpm, hwp⟩ := hc w hw
  obtain ⟨body, -, h2⟩ := signed_witnesses _ t p m hm (hp p hpm)
  exact (witnessesOf_lengths _ (package_key_length H blake256) (package_sig_length H hH blake256) _ _ _ h2).2 w hwp

/-- **C144.** Any collection of witnesses that the parties made from their own copies (in any order, some left out, some twice): the ledger finds exactly these witnesses in the
bytes, all of them are valid for the id of the transaction, and the id is the `Hash` that each of the copies gives. -/
theorem C144_collected (H : Hashes) (hH : H.Ok) (blake256 : Bytes → Bytes) (h256 : ∀ m, (blake256 m).length = 32)
    (t : Tx) (hf : BodyFits t.body) (hmd : GoodMetadata t.metadata) (parties : List Party) (hp : ∀ p ∈ parties, Signed (packageCrypto H blake256) t p)
    (collected : List VKeyWitness) (hc : ∀ w ∈ collected, ∃ p ∈ parties, w ∈ p.witnesses) (hcl : collected.length < 2 ^ 63)
    (k : Nat) (bs : Bytes) (hb : Transaction.bytes (packageCrypto H blake256) (ByHand.setWitness t collected) k = .ok bs) (v : Ledger.TxView) (hv : read bs = some v) :
    v.witnesses = collected.map witOf ∧ (∀ w ∈ v.witnesses, Valid H.sha512 w.1 (blake256 v.body) w.2) ∧
    ∀ t', CopyOf t t' → ∀ k', hash (packageCrypto H blake256) t' k' = .ok (blake256 v.body) := by
  obtain ⟨m, x, hm, hx, -⟩ := goodMetadata_enc _ hmd
  have hsz := signed_sizes H hH blake256 t m hm parties hp collected hc
  obtain ⟨body, h1, -, hr⟩ := collected_read (packageCrypto H blake256) h256 t hf m x hm hx collected ⟨hcl, fun w hw => by have := hsz w hw; omega⟩ k bs hb
  rw [hv] at hr
  obtain ⟨aux, -, rfl, -⟩ := Ledger.assemble_of _ _ _ _ _ _ _ _ hr.symm
  refine ⟨rfl, ?_, ?_⟩
  · intro w hw
    obtain ⟨w0, hw0, rfl⟩ := List.mem_map.1 hw
    obtain ⟨p, hpm, hwp⟩ := hc w0 hw0
    obtain ⟨body', g1, g2⟩ := signed_witnesses _ t p m hm (hp p hpm)
    obtain rfl := Res.ok.inj (g1.symm.trans h1)
    exact (witnessesOf_valid H hH blake256 _ _ (hp p hpm).keys _ g2).1 w0 hwp
  · intro t' ht k'
    unfold Transaction.hash
    rw [copy_body _ t t' ht m hm]
    simp only [Res.ok_bind]
    rw [h1]
    rfl

theorem witnessesOf_append (C : Crypto) (h : Bytes) (a b : List Bytes) (wa wb : List VKeyWitness) (ha : witnessesOf C h a = .ok wa) (hb : witnessesOf C h b = .ok wb) :
    witnessesOf C h (a ++ b) = .ok (wa ++ wb) := by
  induction a generalizing wa with
  | nil => obtain rfl := Res.ok.inj ha; exact hb
  | cons k ks ih =>
    obtain ⟨w, e1, e⟩ := bind_ok ha
    obtain ⟨ws', e2, e⟩ := bind_ok e
    obtain rfl := Res.ok.inj e
    show witnessesOf C h (k :: (ks ++ b)) = _
    simp only [witnessesOf, e1, ih ws' e2, Res.ok_bind]
    rfl

/-- The witnesses of all parties, one party after the other, are those of all keys. -/
theorem parties_together (C : Crypto) (t : Tx) (m body : Bytes) (hm : ∀ k, marshalMetadata t.metadata k = .ok m)
    (hb : marshalBody { t.body with auxHash := auxOf C t.metadata t.body.auxHash m } = .ok body) (parties : List Party) (hp : ∀ p ∈ parties, Signed C t p) :
    witnessesOf C (C.blake256 body) (parties.flatMap Party.keys) = .ok (parties.flatMap Party.witnesses) := by
  induction parties with
  | nil => rfl
  | cons p ps ih =>
    obtain ⟨body', g1, g2⟩ := signed_witnesses C t p m hm (hp p List.mem_cons_self)
    obtain rfl := Res.ok.inj (g1.symm.trans hb)
    rw [List.flatMap_cons, List.flatMap_cons]
    exact witnessesOf_append C _ _ _ _ _ g2 (ih fun q hq => hp q (List.mem_cons_of_mem _ hq))

/-- One caller with all keys. -/
theorem together_bytes (C : Crypto) (t : Tx) (m body : Bytes) (hm : ∀ k, marshalMetadata t.metadata k = .ok m)
    (hb : marshalBody { t.body with auxHash := auxOf C t.metadata t.body.auxHash m } = .ok body) (keys : List Bytes) (ws : List VKeyWitness)
    (hw : witnessesOf C (C.blake256 body) keys = .ok ws) (k : Nat) :
    ByHand.signWith C keys t k = .ok (ByHand.setWitness (afterAux C t k) ws, k + 1) ∧
    Transaction.bytes C (ByHand.setWitness (afterAux C t k) ws) (k + 1) = .ok (0x84 :: (body ++ marshalWitness ws ++ encBool t.valid ++ m)) := by
  constructor
  · have hh : hash C t k = .ok (C.blake256 body) := by
      unfold Transaction.hash
      rw [calcAux_of C t m k (hm k)]
      simp only [Res.ok_bind]
      rw [hb]
      rfl
    unfold ByHand.signWith
    rw [hh]
    simp only [Res.ok_bind]
    rw [hw]
    rfl
  · have hc : CopyOf t (ByHand.setWitness (afterAux C t k) ws) := by
      rw [afterAux_of C t m k (hm k)]
      exact ⟨rfl, rfl, rfl, rfl, rfl, fun h => by show auxOf C t.metadata t.body.auxHash m = _; rw [h]; rfl⟩
    have hv : (ByHand.setWitness (afterAux C t k) ws).valid = t.valid := by rw [afterAux_of C t m k (hm k)]; rfl
    have hmt := hc.metadata
    have hwt : (ByHand.setWitness (afterAux C t k) ws).witness = ws := newTXWitness_self ws
    generalize ByHand.setWitness (afterAux C t k) ws = t' at *
    unfold Transaction.bytes
    rw [copy_body C t t' hc m hm]
    simp only [Res.ok_bind]
    have hok : ∃ bs, marshalTx { t' with body := { t.body with auxHash := auxOf C t.metadata t.body.auxHash m } } (k + 1 + 1) = .ok bs := by
      unfold marshalTx
      dsimp only
      rw [hb, hmt, hm]
      exact ⟨_, rfl⟩
    obtain ⟨bs, hok⟩ := hok
    rw [hok]
    obtain ⟨body', m', e1, e2, e3⟩ := marshalTx_parts _ _ _ hok
    have e2 : marshalMetadata t'.metadata (k + 1 + 1) = .ok m' := e2
    rw [hmt, hm] at e2
    have e1 := hb.symm.trans e1
    rw [e3, ← Res.ok.inj e1, ← Res.ok.inj e2]
    dsimp only
    rw [hwt, hv]

/-- The same body with the same witnesses in another order. -/
theorem collected_perm (H : Hashes) (blake224 blake256 : Bytes → Bytes) (size : Nat) (b : TxBody) (ws ws' : List VKeyWitness) (x y : Item) (body m : Bytes)
    (hp : ws.Perm ws') (hsz : ∀ w ∈ ws', w.vkey.length = 32 ∧ w.signature.length = 64) (e : Env) (u : UTxO) (bs bs' : Bytes)
    (hr : read bs = Ledger.assemble size (bodyItem b) (witnessItem ws) y x body m) (hr' : read bs' = Ledger.assemble size (bodyItem b) (witnessItem ws') y x body m)
    (hv : Ledger.Valid (ledgerCrypto H blake224 blake256) e u bs) : Ledger.Valid (ledgerCrypto H blake224 blake256) e u bs' := by
  obtain ⟨v, h, ha⟩ := hv
  rw [hr] at h
  obtain ⟨aux, c1, rfl, rfl, c4, c5⟩ := Ledger.assemble_of _ _ _ _ _ _ _ _ h
  have hw : (ws.map witOf).Perm (ws'.map witOf) := hp.map _
  refine ⟨_, hr'.trans (Ledger.assemble_ok _ _ _ _ _ _ _ c5 c4 hsz c1), ⟨ha.ttl, ha.nonempty, ha.exist, ha.fee, ha.conserved, ha.minimum, ha.network, ha.size,
    fun w h => ha.signatures w (hw.mem_iff.2 h), fun r h o ho => ?_, ha.aux⟩⟩
  obtain ⟨w, g1, g2⟩ := ha.unlocked r h o ho
  exact ⟨w, hw.mem_iff.1 g1, g2⟩

/-- **C144, as if signed together.** All witnesses of all parties, compared with one caller who has all keys and signs once: the bytes are the same if the witnesses are put in
the order of the keys; in any other order their number is the same and the ledger accepts the one exactly if it accepts the other. -/
theorem C144_as_together (H : Hashes) (hH : H.Ok) (blake224 blake256 : Bytes → Bytes) (h256 : ∀ m, (blake256 m).length = 32)
    (t : Tx) (hf : BodyFits t.body) (hmd : GoodMetadata t.metadata) (parties : List Party) (hp : ∀ p ∈ parties, Signed (packageCrypto H blake256) t p)
    (collected : List VKeyWitness) (hc : collected.Perm (parties.flatMap Party.witnesses)) (hcl : collected.length < 2 ^ 63)
    (k k1 : Nat) (bs : Bytes) (hb : Transaction.bytes (packageCrypto H blake256) (ByHand.setWitness t collected) k = .ok bs) :
    ∃ r bs1, ByHand.signWith (packageCrypto H blake256) (parties.flatMap Party.keys) t k1 = .ok r ∧ Transaction.bytes (packageCrypto H blake256) r.1 r.2 = .ok bs1 ∧
      (collected = parties.flatMap Party.witnesses → bs = bs1) ∧ bs.length = bs1.length ∧
      ∀ e u, Ledger.Valid (ledgerCrypto H blake224 blake256) e u bs ↔ Ledger.Valid (ledgerCrypto H blake224 blake256) e u bs1 := by
  obtain ⟨m, x, hm, hx, -⟩ := goodMetadata_enc _ hmd
  have hmem : ∀ l : List VKeyWitness, l.Perm (parties.flatMap Party.witnesses) → ∀ w ∈ l, ∃ p ∈ parties, w ∈ p.witnesses := by
    intro l hl w hw
    exact List.mem_flatMap.1 (hl.mem_iff.1 hw)
  have hsz := signed_sizes H hH blake256 t m hm parties hp collected (hmem _ hc)
  have hsz1 := signed_sizes H hH blake256 t m hm parties hp _ (hmem _ (.refl _))
  have hl1 : (parties.flatMap Party.witnesses).length < 2 ^ 63 := by rw [← hc.length_eq]; exact hcl
  obtain ⟨body, h1, h2, h3⟩ := collected_read (packageCrypto H blake256) h256 t hf m x hm hx collected ⟨hcl, fun w hw => by have := hsz w hw; omega⟩ k bs hb
  obtain ⟨g1, g2⟩ := together_bytes (packageCrypto H blake256) t m body hm h1 _ _ (parties_together _ t m body hm h1 parties hp) k1
  generalize hbs1 : (0x84 :: (body ++ marshalWitness (parties.flatMap Party.witnesses) ++ encBool t.valid ++ m) : Bytes) = bs1 at g2
  have hread1 := Ledger.read_bytes _ (parties.flatMap Party.witnesses) t.valid body m x (collected_fits (packageCrypto H blake256) h256 t m hf)
    ⟨hl1, fun w hw => by have := hsz1 w hw; omega⟩ h1 hx
  rw [hbs1] at hread1
  have hlen : bs.length = bs1.length := by
    rw [h2, ← hbs1]
    simp only [List.length_cons, List.length_append]
    rw [witness_length _ hsz hcl, witness_length _ hsz1 hl1, hc.length_eq]
  dsimp only at hread1
  rw [hlen] at h3
  exact ⟨_, bs1, g1, g2, fun e => by rw [h2, ← hbs1, e], hlen, fun e u => ⟨collected_perm H blake224 blake256 _ _ _ _ _ _ _ _ hc hsz1 e u bs bs1 h3 hread1,
    collected_perm H blake224 blake256 _ _ _ _ _ _ _ _ hc.symm hsz e u bs1 bs hread1 h3⟩⟩

/-- **C144, it works.** If the outputs can be encoded, then every party with proper keys can sign its copy at any time, and whatever is collected can be serialised. -/
theorem C144_succeeds (H : Hashes) (hH : H.Ok) (blake256 : Bytes → Bytes) (t : Tx) (hmd : GoodMetadata t.metadata)
    (ho : ∀ o ∈ t.body.outputs, ∃ b, marshalAddress o.address = .ok b) :
    (∀ keys t' k, (∀ key ∈ keys, key.length = 96 ∧ leNat (key.take 32) < 2 ^ 255) → CopyOf t t' →
      ∃ ws, Signed (packageCrypto H blake256) t ⟨keys, t', k, ws⟩ ∧ ws.length = keys.length) ∧
    ∀ ws k, ∃ bs, Transaction.bytes (packageCrypto H blake256) (ByHand.setWitness t ws) k = .ok bs := by
  obtain ⟨m, x, hm, hx, -⟩ := goodMetadata_enc _ hmd
  obtain ⟨outs, houts⟩ := collect_total t.body.outputs ho
  have hb : ∃ body, marshalBody { t.body with auxHash := auxOf (packageCrypto H blake256) t.metadata t.body.auxHash m } = .ok body := by
    generalize packageCrypto H blake256 = C
    unfold marshalBody
    dsimp only
    rw [houts]
    exact ⟨_, rfl⟩
  obtain ⟨body, hb⟩ := hb
  refine ⟨?_, ?_⟩
  · intro keys t' k hk ht
    obtain ⟨ws, hws⟩ := witnessesOf_total H hH blake256 (blake256 body) keys hk
    refine ⟨ws, ⟨ht, hk, (ByHand.setWitness (afterAux (packageCrypto H blake256) t' k) ws, k + 1), ?_, newTXWitness_self ws⟩,
      (witnessesOf_lengths _ (package_key_length H blake256) (package_sig_length H hH blake256) _ _ _ hws).1⟩
    have hh : hash (packageCrypto H blake256) t' k = .ok (blake256 body) := by
      unfold Transaction.hash
      rw [copy_body _ t t' ht m hm]
      simp only [Res.ok_bind]
      rw [hb]
      rfl
    unfold ByHand.signWith
    dsimp only
    rw [hh]
    simp only [Res.ok_bind]
    rw [hws]
    rfl
  · intro ws k
    unfold Transaction.bytes
    rw [copy_body _ t (ByHand.setWitness t ws) ⟨rfl, rfl, rfl, rfl, rfl, fun _ => rfl⟩ m hm]
    simp only [Res.ok_bind]
    unfold marshalTx
    dsimp only
    rw [hb, show marshalMetadata (ByHand.setWitness t ws).metadata (k + 1) = .ok m from hm _]
    exact ⟨_, rfl⟩

/-- **C144, someone is missing.** If an input is not locked by a key of those whose witnesses were collected, the ledger does not accept the transaction. -/
theorem C144_missing (H : Hashes) (hH : H.Ok) (blake224 blake256 : Bytes → Bytes) (h256 : ∀ m, (blake256 m).length = 32)
    (t : Tx) (hf : BodyFits t.body) (hmd : GoodMetadata t.metadata) (parties : List Party) (hp : ∀ p ∈ parties, Signed (packageCrypto H blake256) t p)
    (collected : List VKeyWitness) (hc : ∀ w ∈ collected, ∃ p ∈ parties, w ∈ p.witnesses) (hcl : collected.length < 2 ^ 63)
    (k : Nat) (bs : Bytes) (hb : Transaction.bytes (packageCrypto H blake256) (ByHand.setWitness t collected) k = .ok bs) (e : Env) (u : UTxO)
    (i : TxInput) (hi : i ∈ t.body.inputs)
    (hno : ∀ p ∈ parties, ∀ key ∈ p.keys, ∀ pk, MakePublicKey key = .ok pk → ∀ o, u (refOf i) = some o → ¬ Ledger.LockedBy (ledgerCrypto H blake224 blake256) o.1 pk) :
    ¬ Ledger.Valid (ledgerCrypto H blake224 blake256) e u bs := by
  rintro ⟨v, hv, ha⟩
  obtain ⟨m, x, hm, hx, -⟩ := goodMetadata_enc _ hmd
  have hsz := signed_sizes H hH blake256 t m hm parties hp collected hc
  obtain ⟨body, h1, -, hr⟩ := collected_read (packageCrypto H blake256) h256 t hf m x hm hx collected ⟨hcl, fun w hw => by have := hsz w hw; omega⟩ k bs hb
  rw [hv] at hr
  obtain ⟨aux, -, rfl, -⟩ := Ledger.assemble_of _ _ _ _ _ _ _ _ hr.symm
  have hri : refOf i ∈ (Ledger.seen { t.body with auxHash := auxOf (packageCrypto H blake256) t.metadata t.body.auxHash m } collected body aux bs.length).inputs :=
    List.mem_map_of_mem hi
  obtain ⟨o, ho⟩ := Option.isSome_iff_exists.1 (ha.exist _ hri)
  obtain ⟨w, hw, hl⟩ := ha.unlocked _ hri o ho
  obtain ⟨w0, hw0, rfl⟩ := List.mem_map.1 hw
  obtain ⟨p, hpm, hwp⟩ := hc w0 hw0
  obtain ⟨body', -, g2⟩ := signed_witnesses _ t p m hm (hp p hpm)
  obtain ⟨key, hkey, k1, -⟩ := TxBuilder.All2.mem_left (witnessesOf_ok _ _ _ _ g2) w0 hwp
  obtain ⟨q1, q2⟩ := (hp p hpm).keys key hkey
  rw [packageCrypto_publicKey H blake256 key q1 q2] at k1
  exact hno p hpm key hkey _ k1 o ho hl

/-- **C144, another transaction.** A witness that someone made with a usable key from a transaction with another id spoils the collection, unless both ids lead to the same
challenge. -/
theorem C144_other (H : Hashes) (hH : H.Ok) (blake224 blake256 : Bytes → Bytes) (h256 : ∀ m, (blake256 m).length = 32)
    (t : Tx) (hf : BodyFits t.body) (hmd : GoodMetadata t.metadata) (collected : List VKeyWitness) (hcf : WitnessFits collected)
    (k : Nat) (bs : Bytes) (hb : Transaction.bytes (packageCrypto H blake256) (ByHand.setWitness t collected) k = .ok bs)
    (t' : Tx) (k' : Nat) (id id' : Bytes) (hid : hash (packageCrypto H blake256) t k = .ok id) (hid' : hash (packageCrypto H blake256) t' k' = .ok id')
    (keys : List Bytes) (hk : ∀ key ∈ keys, Usable key) (r : Tx × Nat) (hr : ByHand.signWith (packageCrypto H blake256) keys t' k' = .ok r)
    (w : VKeyWitness) (hw : w ∈ r.1.witness) (hwc : w ∈ collected) (hne : challenge H (witOf w) id ≠ challenge H (witOf w) id') (e : Env) (u : UTxO) :
    ¬ Ledger.Valid (ledgerCrypto H blake224 blake256) e u bs := by
  rintro ⟨v, hv, ha⟩
  obtain ⟨m, x, hm, hx, -⟩ := goodMetadata_enc _ hmd
  obtain ⟨body, h1, -, hread⟩ := collected_read (packageCrypto H blake256) h256 t hf m x hm hx collected hcf k bs hb
  rw [hv] at hread
  obtain ⟨aux, -, rfl, -⟩ := Ledger.assemble_of _ _ _ _ _ _ _ _ hread.symm
  have hval : Valid H.sha512 (witOf w).1 (blake256 body) (witOf w).2 := ha.signatures _ (List.mem_map_of_mem hwc)
  have hid : id = blake256 body := by
    unfold Transaction.hash at hid
    rw [copy_body _ t t ⟨rfl, rfl, rfl, rfl, rfl, fun _ => rfl⟩ m hm] at hid
    simp only [Res.ok_bind] at hid
    rw [h1] at hid
    exact (Res.ok.inj hid).symm
  obtain ⟨hs, g1, hr⟩ := bind_ok hr
  obtain ⟨ws, g2, hr⟩ := bind_ok hr
  obtain rfl := Res.ok.inj hr
  rw [hid'] at g1
  obtain rfl := Res.ok.inj g1
  have hw : w ∈ ws := by rw [← newTXWitness_self ws]; exact hw
  obtain ⟨key, hkey, k1, k2⟩ := TxBuilder.All2.mem_left (witnessesOf_ok _ _ _ _ g2) w hw
  obtain ⟨q1, q2, q3⟩ := hk key hkey
  rw [packageCrypto_publicKey H blake256 key q1 q2] at k1
  exact hne (by rw [hid]; exact (C130_signature_binds H hH key q1 q2 q3 _ _ _ _ k2 k1).1 hval)

/-- C144: two parties, one of which has already called `Hash` and has placeholder witnesses in its copy; the transaction has metadata. The collection is serialised and read. -/
example (H : Hashes) (hH : H.Ok) (blake256 : Bytes → Bytes) (h256 : ∀ m, (blake256 m).length = 32) :
    ∃ (t : Tx) (parties : List Party) (collected : List VKeyWitness) (bs : Bytes) (v : Ledger.TxView), BodyFits t.body ∧ GoodMetadata t.metadata ∧ t.metadata ≠ none ∧ (∀ p ∈ parties, Signed (packageCrypto H blake256) t p) ∧
      parties.length = 2 ∧ collected.Perm (parties.flatMap Party.witnesses) ∧ collected.length = 2 ∧
      Transaction.bytes (packageCrypto H blake256) (ByHand.setWitness t collected) 7 = .ok bs ∧ read bs = some v := by
  let t : Tx := ByHand.setMetadata handTx (some ⟨fun _ => .ok [0xa0]⟩)
  let t' : Tx := ByHand.setWitness { t with body := { t.body with auxHash := blake256 [0xa0] } } []
  have hmd : GoodMetadata t.metadata := .inr ⟨_, [0xa0], .map [], rfl, fun _ => rfl, by rfl, by rfl⟩
  have hf : BodyFits t.body := by
    refine ⟨by decide, by decide, by decide, ?_, by decide⟩
    intro o ho
    rw [List.mem_singleton.1 ho]
    exact (by decide +kernel : (Addr.bytes sampleAddr).length < 2 ^ 63)
  have hk : ∀ key ∈ [sampleKey], key.length = 96 ∧ leNat (key.take 32) < 2 ^ 255 := by
    intro k h
    rw [List.mem_singleton.1 h]; exact sampleKey_ok
  have ho : ∀ o ∈ t.body.outputs, ∃ b, marshalAddress o.address = .ok b := by
    intro o ho
    rw [List.mem_singleton.1 ho]
    exact ⟨_, rfl⟩
  obtain ⟨s1, s2⟩ := C144_succeeds H hH blake256 t hmd ho
  obtain ⟨ws, a1, a2⟩ := s1 [sampleKey] t 0 hk ⟨rfl, rfl, rfl, rfl, rfl, fun _ => rfl⟩
  obtain ⟨ws', b1, b2⟩ := s1 [sampleKey] t' 5 hk ⟨rfl, rfl, rfl, rfl, rfl, fun h => by cases h⟩
  obtain ⟨bs, hb⟩ := s2 (ws' ++ ws) 7
  have hp : ∀ p ∈ [(⟨[sampleKey], t, 0, ws⟩ : Party), ⟨[sampleKey], t', 5, ws'⟩], Signed (packageCrypto H blake256) t p := by
    intro p hp
    simp only [List.mem_cons, List.not_mem_nil, or_false] at hp
    rcases hp with rfl | rfl
    · exact a1
    · exact b1
  have hv : ∃ v, read bs = some v := by
    obtain ⟨b, body, aux, -, -, h, -⟩ := hand_read (packageCrypto H blake256) h256 (ByHand.setWitness t (ws' ++ ws)) 7 bs hmd nofun rfl (show ∀ i ∈ handTx.body.inputs, i.txHash.length = 32 by decide) (show handTx.body.inputs.length < 2 ^ 63 by decide)
      (by intro o ho; rw [List.mem_singleton.1 ho]; exact (by decide +kernel : Ledger.OutputAddress (Addr.bytes sampleAddr))) (show handTx.body.outputs.length < 2 ^ 63 by decide)
      (by
        show ∀ w ∈ ByHand.NewTXWitness (ws' ++ ws), _
        rw [newTXWitness_self]
        refine signed_sizes H hH blake256 t [0xa0] (fun _ => rfl) _ hp _ ?_
        intro w hw
        rcases List.mem_append.1 hw with hw | hw
        · exact ⟨_, List.mem_cons_of_mem _ List.mem_cons_self, hw⟩
        · exact ⟨_, List.mem_cons_self, hw⟩)
      (by
        show (ByHand.NewTXWitness (ws' ++ ws)).length < _
        rw [newTXWitness_self, List.length_append, a2, b2]
        decide) hb
    exact ⟨_, h⟩
  obtain ⟨v, hv⟩ := hv
  exact ⟨t, [⟨[sampleKey], t, 0, ws⟩, ⟨[sampleKey], t', 5, ws'⟩], ws' ++ ws, bs, v, hf, hmd, nofun, hp, rfl,
    by simpa using (List.perm_append_comm : (ws' ++ ws).Perm (ws ++ ws')), by rw [List.length_append, a2, b2]; rfl, hb, hv⟩

/-- C144: the only party has the key of the sample, and the input is locked by another key hash. -/
example (H : Hashes) (hH : H.Ok) (blake224 blake256 : Bytes → Bytes) (h224 : ∀ m, (blake224 m).length = 28) :
    ∃ (p : Party) (bs : Bytes) (u : UTxO), Signed (packageCrypto H blake256) handTx p ∧ p.witnesses.length = 1 ∧
      Transaction.bytes (packageCrypto H blake256) (ByHand.setWitness handTx p.witnesses) 0 = .ok bs ∧
      ∃ i ∈ handTx.body.inputs, (u (refOf i)).isSome ∧ ∀ key ∈ p.keys, ∀ pk, MakePublicKey key = .ok pk → ∀ o, u (refOf i) = some o →
        ¬ Ledger.LockedBy (ledgerCrypto H blake224 blake256) o.1 pk := by
  obtain ⟨s1, s2⟩ := C144_succeeds H hH blake256 handTx (.inl rfl) (by intro o ho; rw [List.mem_singleton.1 ho]; exact ⟨_, rfl⟩)
  obtain ⟨ws, a1, a2⟩ := s1 [sampleKey] handTx 0 (by intro k h; rw [List.mem_singleton.1 h]; exact sampleKey_ok) ⟨rfl, rfl, rfl, rfl, rfl, fun _ => rfl⟩
  obtain ⟨bs, hb⟩ := s2 ws 0
  obtain ⟨pk0, -, p1, -⟩ := C36_public_key sampleKey sampleKey_ok.1 sampleKey_ok.2
  refine ⟨⟨[sampleKey], handTx, 0, ws⟩, bs, fun _ => some (0x61 :: (blake224 pk0).map (· + 1), 10000000), a1, a2, hb, _, List.mem_singleton.2 rfl, rfl, ?_⟩
  intro key hkey pk hpk o ho
  rw [List.mem_singleton.1 hkey, p1] at hpk
  obtain rfl := Res.ok.inj hpk
  obtain rfl := Option.some.inj ho
  rintro ⟨h, rest, e, -⟩
  injection e with _ e
  have hl := h224 pk0
  change (blake224 pk0).map (· + 1) = blake224 pk0 ++ rest at e
  cases hc : blake224 pk0 with
  | nil => rw [hc] at hl; cases hl
  | cons a l =>
    rw [hc] at e
    injection e with e _
    simp at e

/-- Hash functions for an example: the last byte, and the sum of all bytes. -/
def lastByteHashes : Hashes := ⟨fun m => m.getLastD 0 :: List.replicate 63 0, fun _ => List.replicate 32 0, fun _ _ => List.replicate 64 0, fun _ _ => List.replicate 96 0⟩

def sumOfBytes (m : Bytes) : Bytes := List.replicate 31 0 ++ [m.foldl (· + ·) 0]

/-- C144: a party that signs a transaction with another fee. -/
example : ∃ t' : Tx, t'.body.fee ≠ handTx.body.fee ∧ ∃ id id' r bs w, hash (packageCrypto lastByteHashes sumOfBytes) handTx 0 = .ok id ∧
    hash (packageCrypto lastByteHashes sumOfBytes) t' 0 = .ok id' ∧ Usable sampleKey ∧
    ByHand.signWith (packageCrypto lastByteHashes sumOfBytes) [sampleKey] t' 0 = .ok r ∧ w ∈ r.1.witness ∧ challenge lastByteHashes (witOf w) id ≠ challenge lastByteHashes (witOf w) id' ∧
    Transaction.bytes (packageCrypto lastByteHashes sumOfBytes) (ByHand.setWitness handTx [w]) 0 = .ok bs := by
  have hH : lastByteHashes.Ok := ⟨fun _ => rfl, fun _ => rfl, fun _ _ => rfl, fun _ _ => rfl⟩
  have hout : ∀ o ∈ handTx.body.outputs, ∃ b, marshalAddress o.address = .ok b := by intro o ho; rw [List.mem_singleton.1 ho]; exact ⟨_, rfl⟩
  obtain ⟨s1, -⟩ := C144_succeeds lastByteHashes hH sumOfBytes (ByHand.SetFee handTx 1) (.inl rfl) hout
  obtain ⟨-, s2⟩ := C144_succeeds lastByteHashes hH sumOfBytes handTx (.inl rfl) hout
  obtain ⟨ws, ⟨-, -, r, hr, hw⟩, a2⟩ := s1 [sampleKey] (ByHand.SetFee handTx 1) 0 (by intro k h; rw [List.mem_singleton.1 h]; exact sampleKey_ok) ⟨rfl, rfl, rfl, rfl, rfl, fun _ => rfl⟩
  obtain ⟨w, hw1⟩ := List.length_eq_one_iff.1 a2
  obtain ⟨bs, hb⟩ := s2 [w] 0
  have key : ∀ (x : UInt8), challenge lastByteHashes (witOf w) (List.replicate 31 0 ++ [x]) = x.toNat := by
    intro x
    unfold challenge lastByteHashes
    dsimp only
    rw [← List.append_assoc, List.getLastD_concat]
    show (x.toNat + 256 * leNat (List.replicate 63 0)) % L = _
    rw [show leNat (List.replicate 63 0) = 0 by decide +kernel, Nat.mul_zero, Nat.add_zero]
    exact Nat.mod_eq_of_lt (by have := x.toNat_lt; have : 256 < L := by decide +kernel
                               omega)
  have hne : ∃ id id', hash (packageCrypto lastByteHashes sumOfBytes) handTx 0 = .ok id ∧ hash (packageCrypto lastByteHashes sumOfBytes) (ByHand.SetFee handTx 1) 0 = .ok id' ∧
      challenge lastByteHashes (witOf w) id ≠ challenge lastByteHashes (witOf w) id' := by
    refine ⟨_, _, rfl, rfl, ?_⟩
    show challenge lastByteHashes (witOf w) (List.replicate 31 0 ++ [_]) ≠ challenge lastByteHashes (witOf w) (List.replicate 31 0 ++ [_])
    rw [key, key]
    decide +kernel
  obtain ⟨id, id', h1, h2, h3⟩ := hne
  exact ⟨ByHand.SetFee handTx 1, by decide, id, id', r, bs, w, h1, h2, sampleKey_usable, hr, by rw [hw]; show w ∈ ws; rw [hw1]; exact List.mem_cons_self, h3, hb⟩

end Cardano.Props
