import Verif.Props.Collected
/-!
# C146: a transaction prepared without the keys

The builder on a machine without private keys; the signatures are made elsewhere from the transaction id and put in afterwards.
-/
set_option autoImplicit false

namespace Cardano.Props
open Cbor TxSpec Transaction TxBuilder Addr Bip32
open Ledger (read refOf outOf witOf Env UTxO)

/-- The transaction that the calls give has the metadata of the session. -/
theorem built_metadata (C : Crypto) (s : Session) (t : Tx) (bs : Bytes) (hb : Built C s.builder s.change [] t bs) : t.metadata = s.metadata := by
  obtain ⟨h, b', k, e, ev, -⟩ := hb.run
  obtain ⟨_, _, _, -, -, -, g4, g5⟩ := build_ok C _ b' h e
  rw [← ev, view_build _ b' h _ _ g4 g5, foldl_sign]
  rfl

/-- Its hash is that of the encoded body. -/
theorem built_hash (C : Crypto) (s : Session) (t : Tx) (bs m : Bytes) (hm : ∀ k, marshalMetadata s.metadata k = .ok m) (hb : Built C s.builder s.change [] t bs) :
    ∃ body, marshalBody t.body = .ok body ∧ marshalBody { t.body with auxHash := auxOf C t.metadata t.body.auxHash m } = .ok body ∧
      (∀ k, hash C t k = .ok (C.blake256 body)) ∧ bs = 0x84 :: (body ++ marshalWitness t.witness ++ encBool t.valid ++ m) ∧ t.valid = true ∧
      witnessesOf C (C.blake256 body) s.keys = .ok t.witness := by
  obtain ⟨h1, hv, body, h2, h3, h4⟩ := built_parts C s.builder s.change [] t bs m hb hm
  have em := built_metadata C s t bs hb
  have hbody : ({ t.body with auxHash := auxOf C t.metadata t.body.auxHash m } : TxBody) = t.body := by
    rw [em, h1]
    have ha : auxOf C s.metadata (auxOf C s.builder.metadata s.builder.body.auxHash m) m = auxOf C s.builder.metadata s.builder.body.auxHash m := by
      show auxOf C s.metadata (auxOf C s.metadata _ m) m = auxOf C s.metadata _ m
      cases s.metadata <;> rfl
    dsimp only
    rw [ha]
  rw [List.append_nil] at h4
  refine ⟨body, h2, by rw [hbody]; exact h2, fun k => ?_, h3, hv, h4⟩
  unfold Transaction.hash
  rw [calcAux_of C t m k (by rw [em]; exact hm k)]
  simp only [Res.ok_bind]
  rw [hbody, h2]
  rfl

/-- **C146, the same transaction.** Whatever keys two builders have, the same calls give the same transaction up to signatures, with the same id. -/
theorem C146_copy (C : Crypto) (s : Session) (keys : List Bytes) (hmd : GoodMetadata s.metadata) (t t' : Tx) (bs bs' : Bytes)
    (hb : Built C s.builder s.change [] t bs) (hb' : Built C { s with keys := keys }.builder s.change [] t' bs') :
    CopyOf t t' ∧ ∃ id, ∀ k, hash C t k = .ok id ∧ hash C t' k = .ok id := by
  obtain ⟨m, x, hm, -⟩ := goodMetadata_enc _ hmd
  obtain ⟨h1, -⟩ := built_parts C s.builder s.change [] t bs m hb hm
  obtain ⟨g1, -⟩ := built_parts C { s with keys := keys }.builder s.change [] t' bs' m hb' hm
  have em := built_metadata C s t bs hb
  have em' : t'.metadata = s.metadata := built_metadata C { s with keys := keys } t' bs' hb'
  have eb : t'.body = t.body := by rw [h1, g1]; rfl
  have hc : CopyOf t t' := ⟨by rw [eb], by rw [eb], by rw [eb], by rw [eb], by rw [em, em'], fun _ => by rw [eb]⟩
  obtain ⟨body, -, -, h2, -⟩ := built_hash C s t bs m hm hb
  exact ⟨hc, _, fun k => ⟨h2 k, by rw [C144_same_id C t t' hc m (by rw [em]; exact hm) k k]; exact h2 k⟩⟩

/-- **C146.** A builder without keys succeeds. Its transaction has no witnesses, and no ledger accepts its bytes. The holder of the keys signs its id and hands over the witnesses;
with these the bytes are the ones that a builder with the keys gives, and the fee is the same. -/
theorem C146_cold (H : Hashes) (hH : H.Ok) (blake256 : Bytes → Bytes) (h256 : ∀ m, (blake256 m).length = 32) (s : Session) (hf : s.Fits)
    (ho : ∀ o ∈ s.outputs, ∃ b, marshalAddress o.address = .ok b) (hc : ∃ b, marshalAddress s.change = .ok b)
    (hk : ∀ k ∈ s.keys, k.length = 96 ∧ leNat (k.take 32) < 2 ^ 255) :
    ∃ t0 bs0 fee bs id ws, Built (packageCrypto H blake256) { s with keys := [] }.builder s.change [] t0 bs0 ∧ t0.witness = [] ∧
      (∀ LC e u, ¬ Ledger.Valid LC e u bs0) ∧
      (∀ k, hash (packageCrypto H blake256) t0 k = .ok id) ∧ witnessesOf (packageCrypto H blake256) id s.keys = .ok ws ∧
      (∀ k, Transaction.bytes (packageCrypto H blake256) (ByHand.setWitness t0 ws) k = .ok bs) ∧
      s.Yields (packageCrypto H blake256) fee bs ∧ t0.body.fee.toNat = fee := by
  obtain ⟨m, x, hm, hx, -⟩ := goodMetadata_enc _ hf.metadata
  obtain ⟨fee, bs, t, hb, hfee⟩ := C77_succeeds H hH blake256 s hf.metadata ho hc hk
  obtain ⟨fee0, bs0, t0, hb0, hfee0⟩ := C77_succeeds H hH blake256 { s with keys := [] } hf.metadata ho hc nofun
  have hb0 : Built (packageCrypto H blake256) { s with keys := [] }.builder s.change [] t0 bs0 := hb0
  obtain ⟨hcopy, -⟩ := C146_copy (packageCrypto H blake256) s [] hf.metadata t t0 bs bs0 hb hb0
  obtain ⟨body, h1, h2, h3, h4, h5, h6⟩ := built_hash (packageCrypto H blake256) s t bs m hm hb
  obtain ⟨body0, g1, g2, g3, g4, g5, g6⟩ := built_hash (packageCrypto H blake256) { s with keys := [] } t0 bs0 m hm hb0
  have em := built_metadata _ s t bs hb
  have em0 : t0.metadata = s.metadata := built_metadata _ { s with keys := [] } t0 bs0 hb0
  have hm0 : ∀ k, marshalMetadata t0.metadata k = .ok m := by rw [em0]; exact hm
  have hw0 : t0.witness = [] := by
    have : witnessesOf (packageCrypto H blake256) ((packageCrypto H blake256).blake256 body0) [] = .ok t0.witness := g6
    exact (Res.ok.inj this).symm
  have hid : (packageCrypto H blake256).blake256 body0 = (packageCrypto H blake256).blake256 body := by
    have e := C144_same_id (packageCrypto H blake256) t t0 hcopy m (by rw [em]; exact hm) 0 0
    rw [g3, h3] at e
    exact Res.ok.inj e
  have hbb : body0 = body := by
    have e := copy_body (packageCrypto H blake256) t t0 hcopy m (by rw [em]; exact hm) 0
    rw [calcAux_of _ t0 m 0 (hm0 0)] at e
    rw [Res.ok.inj e, h2] at g2
    exact (Res.ok.inj g2).symm
  refine ⟨t0, bs0, fee, bs, _, t.witness, hb0, hw0, ?_, fun k => by rw [g3, hid], h6, ?_, ⟨t, hb, hfee⟩, ?_⟩
  · intro LC e u
    obtain ⟨k, eb⟩ : ∃ k, Transaction.bytes (packageCrypto H blake256) t0 k = .ok bs0 := by
      obtain ⟨_, _, k, -, -, eb⟩ := hb0.run
      exact ⟨k, eb⟩
    refine C100_unsigned_rejected (packageCrypto H blake256) h256 LC e u t0 k bs0 hw0 (by rw [em0]; exact hf.metadata) ?_ eb
    obtain ⟨hbody, -⟩ := built_parts (packageCrypto H blake256) { s with keys := [] }.builder s.change [] t0 bs0 m hb0 hm
    have eI : ({ s with keys := [] } : Session).builder.body.inputs = s.inputs := by simp [Session.builder, setMetadata, SetTTL, AddOutputs, AddInputs, NewTxBuilder]
    have eO : ({ s with keys := [] } : Session).builder.body.outputs = s.outputs := by simp [Session.builder, setMetadata, SetTTL, AddOutputs, AddInputs, NewTxBuilder]
    have fI : t0.body.inputs = s.inputs := by rw [hbody]; exact eI
    have fO : ∃ n, t0.body.outputs = s.outputs ++ [⟨s.change, n⟩] := by rw [hbody]; dsimp only; rw [eO]; exact ⟨_, rfl⟩
    obtain ⟨n, fO⟩ := fO
    refine ⟨by rw [fI]; exact hf.inputs, ?_, by rw [fI]; exact hf.ids, ?_, ?_⟩
    · rw [fO, List.length_append, List.length_singleton]
      have := hf.outputs
      omega
    · rw [fO]
      intro o ho'
      rcases List.mem_append.1 ho' with ho' | ho'
      · exact hf.addrs o ho'
      · rw [List.mem_singleton.1 ho']; exact hf.change
    · rw [hbody]
      show (auxOf (packageCrypto H blake256) s.metadata [] m).length < _
      cases s.metadata with
      | none => exact (by decide : 0 < 2 ^ 63)
      | some d => show (blake256 m).length < _; rw [h256]; decide
  · intro k
    obtain ⟨bs1, e1⟩ : ∃ bs1, Transaction.bytes (packageCrypto H blake256) (ByHand.setWitness t0 t.witness) k = .ok bs1 := by
      unfold Transaction.bytes
      rw [copy_body _ t0 (ByHand.setWitness t0 t.witness) ⟨rfl, rfl, rfl, rfl, rfl, fun _ => rfl⟩ m hm0]
      simp only [Res.ok_bind]
      unfold marshalTx
      dsimp only
      rw [g2, show marshalMetadata (ByHand.setWitness t0 t.witness).metadata (k + 1) = .ok m from hm0 _]
      exact ⟨_, rfl⟩
    obtain ⟨body1, e2, e3⟩ := collected_bytes _ t0 m hm0 _ k bs1 e1
    rw [g2] at e2
    rw [e1, e3, ← Res.ok.inj e2, hbb, h4, g5, h5]
  · rw [hcopy.fee, hfee]

/-- C146: 10 ada in, 5 out, two keys. -/
example : ∃ s : Session, s.Fits ∧ (∀ o ∈ s.outputs, ∃ b, marshalAddress o.address = .ok b) ∧ (∃ b, marshalAddress s.change = .ok b) ∧
    (∀ k ∈ s.keys, k.length = 96 ∧ leNat (k.take 32) < 2 ^ 255) ∧ s.keys.length = 2 ∧ s.inputs ≠ [] ∧ s.outputs ≠ [] :=
  ⟨sampleSession [sampleKey, sampleKey] 10000000 5000000 sampleAddr,
    sample_fits [sampleKey, sampleKey] (by decide : 2 < 2 ^ 63) _ _ sampleAddr (by decide +kernel : (Addr.bytes sampleAddr).length < 2 ^ 63),
    by intro o h; rw [List.mem_singleton.1 h]; exact ⟨_, rfl⟩, ⟨_, rfl⟩,
    by
      intro k h
      have h : k ∈ [sampleKey, sampleKey] := h
      simp only [List.mem_cons, List.not_mem_nil, or_false, or_self] at h
      rw [h]; exact sampleKey_ok,
    rfl, by decide, nofun⟩

end Cardano.Props
