import Verif.Props.Altered
import Verif.Props.Manual
/-!
# C137: the order of inputs, outputs and keys does not matter

The lists that a service returns have no particular order.
-/
set_option autoImplicit false

namespace Cardano.Props
open Cbor TxSpec Transaction TxBuilder Addr Bip32
open Ledger (read refOf outOf witOf Env UTxO)

/-- The same inputs, outputs and keys in another order. -/
structure Reordered (s s' : Session) : Prop where
  inputs : s.inputs.Perm s'.inputs
  outputs : s.outputs.Perm s'.outputs
  keys : s.keys.Perm s'.keys
  ttl : s.ttl = s'.ttl
  metadata : s.metadata = s'.metadata
  change : s.change = s'.change
  protocol : s.protocol = s'.protocol

theorem Reordered.symm {s s' : Session} (h : Reordered s s') : Reordered s' s :=
  ⟨h.inputs.symm, h.outputs.symm, h.keys.symm, h.ttl.symm, h.metadata.symm, h.change.symm, h.protocol.symm⟩

theorem Reordered.fits {s s' : Session} (h : Reordered s s') (hf : s.Fits) : s'.Fits :=
  ⟨by rw [← h.inputs.length_eq]; exact hf.inputs, by rw [← h.outputs.length_eq]; exact hf.outputs, by rw [← h.keys.length_eq]; exact hf.keys,
    fun i hi => hf.ids i (h.inputs.mem_iff.2 hi), fun o ho => hf.addrs o (h.outputs.mem_iff.2 ho), h.change ▸ hf.change, h.metadata ▸ hf.metadata⟩

theorem collect_perm {l l' : List (Res Bytes)} (h : l.Perm l') : ∀ outs, collect l = .ok outs → ∃ outs', collect l' = .ok outs' ∧ outs.Perm outs' := by
  induction h with
  | nil => intro outs e; exact ⟨outs, e, .refl _⟩
  | cons x h ih =>
    intro outs e
    obtain ⟨b, e1, e⟩ := bind_ok e
    obtain ⟨bs, e2, e⟩ := bind_ok e
    obtain ⟨bs', e3, p⟩ := ih bs e2
    obtain rfl := Res.ok.inj e
    refine ⟨b :: bs', ?_, p.cons b⟩
    simp only [collect, e1, e3, Res.ok_bind]
    rfl
  | swap x y l =>
    intro outs e
    obtain ⟨b, e1, e⟩ := bind_ok e
    obtain ⟨bs, e2, e⟩ := bind_ok e
    obtain ⟨c, e3, e2⟩ := bind_ok e2
    obtain ⟨cs, e4, e2⟩ := bind_ok e2
    obtain rfl := Res.ok.inj e
    obtain rfl := Res.ok.inj e2
    refine ⟨c :: b :: cs, ?_, .swap _ _ _⟩
    simp only [collect, e1, e3, e4, Res.ok_bind]
    rfl
  | trans h1 h2 ih1 ih2 =>
    intro outs e
    obtain ⟨o1, a1, a2⟩ := ih1 outs e
    obtain ⟨o2, b1, b2⟩ := ih2 o1 a1
    exact ⟨o2, b1, a2.trans b2⟩

theorem collect_each (l : List (Res Bytes)) : ∀ outs, collect l = .ok outs → ∀ x ∈ l, ∃ b, x = .ok b := by
  induction l with
  | nil => intro _ _ x hx; cases hx
  | cons y l ih =>
    intro outs e x hx
    obtain ⟨b, e1, e⟩ := bind_ok e
    obtain ⟨bs, e2, e⟩ := bind_ok e
    rcases List.mem_cons.1 hx with rfl | hx
    · exact ⟨b, e1⟩
    · exact ih bs e2 x hx

theorem innerAddr_marshals : ∃ b, marshalAddress innerAddr = .ok b := by
  obtain ⟨ab, hab, -⟩ := outputAddress_written _ (by decide +kernel : Ledger.OutputAddress (Addr.bytes innerAddr))
  exact ⟨ab, hab⟩

theorem encArray_perm {l l' : List Bytes} (h : l.Perm l') : (encArray l).length = (encArray l').length := by
  rw [encArray, encArray, List.length_append, List.length_append, List.length_flatten, List.length_flatten, h.length_eq, (h.map List.length).sum_eq]

theorem totalIn_perm {l l' : List TxInput} (h : l.Perm l') : totalIn l = totalIn l' := by
  apply UInt64.toNat_inj.1
  rw [totalIn_toNat, totalIn_toNat]
  unfold sumIn
  rw [(h.map _).sum_eq]

theorem totalOut_perm {l l' : List TxOutput} (h : l.Perm l') : totalOut l = totalOut l' := by
  apply UInt64.toNat_inj.1
  rw [totalOut_toNat, totalOut_toNat]
  unfold sumOut
  rw [(h.map _).sum_eq]

theorem feeOuts_perm (b b' : Builder) (hi : b.body.inputs.Perm b'.body.inputs) (ho : b.body.outputs.Perm b'.body.outputs) : (feeOuts b).Perm (feeOuts b') := by
  unfold feeOuts
  generalize innerAddr = x
  rw [totalIn_perm hi, totalOut_perm ho]
  split
  · exact ho.append_right _
  · exact ho

/-- `MinFee` in another order. -/
theorem minFee_perm (C : Crypto) (hH : ∀ m, (C.blake256 m).length = 32) (b b' : Builder) (n : Nat) (outs : List Bytes)
    (h : ∀ k, ∃ m, marshalMetadata b.metadata k = .ok m ∧ m.length = n) (ho : collect ((feeOuts b).map marshalOutput) = .ok outs)
    (p1 : b.body.inputs.Perm b'.body.inputs) (p2 : b.body.outputs.Perm b'.body.outputs) (e1 : b.metadata = b'.metadata) (e2 : b.body.ttl = b'.body.ttl)
    (e3 : b.body.fee = b'.body.fee) (e4 : feeWits b = feeWits b') (e5 : b.protocol = b'.protocol) : (MinFee C b).1 = (MinFee C b').1 := by
  obtain ⟨outs', ho', po⟩ := collect_perm ((feeOuts_perm b b' p1 p2).map marshalOutput) outs ho
  obtain ⟨l1, l2, f, a1, a2, base, a3, a4, a5⟩ := minFee_of C hH b n outs h ho
  obtain ⟨l1', l2', f', a1', a2', base', a3', a4', a5'⟩ := minFee_of C hH b' n outs' (e1 ▸ h) ho'
  have eb : base = base' := by
    rw [a3, a3', encArray_perm (p1.map marshalInput), encArray_perm po, e1, e2, e4]
  have el : l1 = l1' := by rw [a4, a4', eb, e3]
  have ef : f = f' := by rw [a1, a1', e5, el]
  have el2 : l2 = l2' := by rw [a5, a5', eb, ef]
  rw [a2, a2', e5, el2]

/-- The parts of what a session yields. -/
theorem session_parts (H : Hashes) (hH : H.Ok) (blake256 : Bytes → Bytes) (h256 : ∀ m, (blake256 m).length = 32)
    (s : Session) (fee : Nat) (bs m : Bytes) (x : Item) (hf : s.Fits) (hy : s.Yields (packageCrypto H blake256) fee bs)
    (hm : ∀ k, marshalMetadata s.metadata k = .ok m) (hx : parse m = some x) :
    ∃ f ws body, f.toNat = fee ∧ f = (MinFee (packageCrypto H blake256) s.builder).1 ∧
      marshalBody ⟨s.inputs, s.outputs ++ [⟨s.change, totalIn s.inputs - totalOut s.outputs - f⟩], f, s.ttl, auxOf (packageCrypto H blake256) s.metadata [] m⟩ = .ok body ∧
      bs = 0x84 :: (body ++ marshalWitness ws ++ encBool true ++ m) ∧ witnessesOf (packageCrypto H blake256) (blake256 body) s.keys = .ok ws ∧
      read bs = Ledger.assemble bs.length
        (bodyItem ⟨s.inputs, s.outputs ++ [⟨s.change, totalIn s.inputs - totalOut s.outputs - f⟩], f, s.ttl, auxOf (packageCrypto H blake256) s.metadata [] m⟩)
        (witnessItem ws) (.simple 21) x body m := by
  obtain ⟨t, hb, rfl⟩ := hy
  obtain ⟨hbody, hval, body, h1, h2, h3⟩ := built_parts (packageCrypto H blake256) s.builder s.change [] t bs m hb hm
  have eI : s.builder.body.inputs = s.inputs := by simp [Session.builder, setMetadata, SetTTL, AddOutputs, AddInputs, NewTxBuilder]
  have eO : s.builder.body.outputs = s.outputs := by simp [Session.builder, setMetadata, SetTTL, AddOutputs, AddInputs, NewTxBuilder]
  have eK : s.builder.xprvs ++ [] = s.keys := by rw [List.append_nil]; rfl
  rw [eK] at h3
  have hfee : t.body.fee = (MinFee (packageCrypto H blake256) s.builder).1 := by rw [hbody]
  rw [← hfee, eI, eO] at hbody
  have hbody : t.body = ⟨s.inputs, s.outputs ++ [⟨s.change, totalIn s.inputs - totalOut s.outputs - t.body.fee⟩], t.body.fee, s.ttl, auxOf (packageCrypto H blake256) s.metadata [] m⟩ := by
    rw [hbody]
    exact congrArg (fun l => TxBody.mk l _ _ _ _) eI
  have hval : t.valid = true := hval
  rw [hval] at h2
  have hwl := witnessesOf_lengths _ (package_key_length H blake256) (package_sig_length H hH blake256) _ _ _ h3
  have hwf : WitnessFits t.witness := ⟨by rw [hwl.1]; exact hf.keys, fun w hw => by have := hwl.2 w hw; omega⟩
  rw [hbody] at h1
  refine ⟨t.body.fee, t.witness, body, rfl, hfee, h1, h2, h3, ?_⟩
  have hbf : BodyFits ⟨s.inputs, s.outputs ++ [⟨s.change, totalIn s.inputs - totalOut s.outputs - t.body.fee⟩], t.body.fee, s.ttl, auxOf (packageCrypto H blake256) s.metadata [] m⟩ := by
    refine ⟨hf.inputs, ?_, hf.ids, ?_, ?_⟩
    · have := hf.outputs; simp only [List.length_append, List.length_singleton]; omega
    · intro o ho
      rcases List.mem_append.1 ho with ho | ho
      · exact hf.addrs o ho
      · rw [List.mem_singleton.1 ho]; exact hf.change
    · show (auxOf _ _ _ _).length < _
      cases s.metadata with
      | none => exact (by decide : 0 < 2 ^ 63)
      | some d => show (blake256 m).length < _; rw [h256]; decide
  have hread := Ledger.read_bytes _ t.witness true body m x hbf hwf h1 hx
  rw [← h2] at hread
  exact hread

/-- One direction. -/
theorem reordered_valid (H : Hashes) (hH : H.Ok) (blake224 blake256 : Bytes → Bytes) (h256 : ∀ m, (blake256 m).length = 32)
    (s s' : Session) (hf : s.Fits) (hk : ∀ k ∈ s.keys, k.length = 96 ∧ leNat (k.take 32) < 2 ^ 255) (hp : Reordered s s')
    (fee : Nat) (bs bs' : Bytes) (hy : s.Yields (packageCrypto H blake256) fee bs) (hy' : s'.Yields (packageCrypto H blake256) fee bs') (hl : bs'.length = bs.length)
    (e : Env) (u : UTxO) (hv : Ledger.Valid (ledgerCrypto H blake224 blake256) e u bs) : Ledger.Valid (ledgerCrypto H blake224 blake256) e u bs' := by
  obtain ⟨m, x, hm, hx, -⟩ := goodMetadata_enc _ hf.metadata
  obtain ⟨f, ws, body, a1, -, a3, a4, a5, a6⟩ := session_parts H hH blake256 h256 s fee bs m x hf hy hm hx
  obtain ⟨f', ws', body', b1, -, b3, b4, b5, b6⟩ := session_parts H hH blake256 h256 s' fee bs' m x (hp.fits hf) hy' (hp.metadata ▸ hm) hx
  obtain rfl : f = f' := UInt64.toNat_inj.1 (a1.trans b1.symm)
  obtain ⟨v, hr, hacc⟩ := hv
  rw [a6] at hr
  obtain ⟨aux, c1, rfl, -, c4, c5⟩ := Ledger.assemble_of _ _ _ _ _ _ _ _ hr
  obtain ⟨w1, w2⟩ := witnessesOf_lengths _ (package_key_length H blake256) (package_sig_length H hH blake256) _ _ _ b5
  have hout : (s.outputs ++ [TxOutput.mk s.change (totalIn s.inputs - totalOut s.outputs - f)]).Perm (s'.outputs ++ [TxOutput.mk s'.change (totalIn s'.inputs - totalOut s'.outputs - f)]) := by
    rw [hp.change, totalIn_perm hp.inputs, totalOut_perm hp.outputs]
    exact hp.outputs.append_right _
  have hk' : ∀ k ∈ s'.keys, k.length = 96 ∧ leNat (k.take 32) < 2 ^ 255 := fun k h => hk k (hp.keys.mem_iff.2 h)
  obtain ⟨v1, v2⟩ := witnessesOf_valid H hH blake256 _ _ hk' _ b5
  have w3 := witnessesOf_ok _ _ _ _ a5
  refine ⟨_, b6.trans (Ledger.assemble_ok _ _ _ _ _ _ _ (fun i hi => c5 i (hp.inputs.mem_iff.2 hi)) (fun o ho => c4 o (hout.mem_iff.2 ho)) w2 c1), ?_⟩
  have hin : (s.inputs.map refOf).Perm (s'.inputs.map refOf) := hp.inputs.map _
  have hou := hout.map outOf
  refine ⟨?_, ?_, ?_, ?_, ?_, ?_, ?_, ?_, ?_, ?_, ?_⟩
  · have := hacc.ttl
    unfold Ledger.seen at this ⊢
    dsimp only at this ⊢
    rw [← hp.ttl]; exact this
  · intro h
    exact hacc.nonempty (List.Perm.eq_nil (h ▸ hin))
  · exact fun r hr => hacc.exist r (hin.mem_iff.2 hr)
  · have := hacc.fee
    unfold Ledger.seen at this ⊢
    dsimp only at this ⊢
    rw [hl]; exact this
  · have := hacc.conserved
    unfold Ledger.seen at this ⊢
    dsimp only at this ⊢
    rw [← (hou.map (·.2)).sum_eq, ← this]
    exact Finset.sum_congr (List.toFinset_eq_of_perm _ _ hin.symm) fun _ _ => rfl
  · exact fun o ho => hacc.minimum o (hou.mem_iff.2 ho)
  · exact fun o ho => hacc.network o (hou.mem_iff.2 ho)
  · have := hacc.size
    unfold Ledger.seen at this ⊢
    dsimp only at this ⊢
    rw [hl]; exact this
  · intro w hw
    obtain ⟨w0, hw0, rfl⟩ := List.mem_map.1 hw
    exact v1 w0 hw0
  · intro r hr o ho
    obtain ⟨w, hw, hlock⟩ := hacc.unlocked r (hin.mem_iff.2 hr) o ho
    obtain ⟨w0, hw0, rfl⟩ := List.mem_map.1 hw
    obtain ⟨k, hk0, k1, -⟩ := TxBuilder.All2.mem_left w3 w0 hw0
    obtain ⟨w', hw', k2⟩ := v2 k (hp.keys.mem_iff.1 hk0) _ k1
    refine ⟨witOf w', List.mem_map_of_mem hw', ?_⟩
    show Ledger.LockedBy _ _ w'.vkey
    rw [k2]; exact hlock
  · have := hacc.aux
    unfold Ledger.seen at this ⊢
    dsimp only at this ⊢
    rw [← hp.metadata]; exact this

/-- **C137.** Inputs, outputs and keys in any other order: the calls succeed as well, with the same fee and the same number of bytes, and the ledger accepts the one transaction
exactly if it accepts the other, whatever is unspent. -/
theorem C137_any_order (H : Hashes) (hH : H.Ok) (blake224 blake256 : Bytes → Bytes) (h256 : ∀ m, (blake256 m).length = 32)
    (s s' : Session) (hf : s.Fits) (hk : ∀ k ∈ s.keys, k.length = 96 ∧ leNat (k.take 32) < 2 ^ 255) (hp : Reordered s s')
    (fee : Nat) (bs : Bytes) (hy : s.Yields (packageCrypto H blake256) fee bs) :
    ∃ bs', s'.Yields (packageCrypto H blake256) fee bs' ∧ bs'.length = bs.length ∧
      ∀ e u, Ledger.Valid (ledgerCrypto H blake224 blake256) e u bs ↔ Ledger.Valid (ledgerCrypto H blake224 blake256) e u bs' := by
  obtain ⟨m, x, hm, hx, -⟩ := goodMetadata_enc _ hf.metadata
  obtain ⟨f, ws, body, a1, a2, a3, a4, a5, -⟩ := session_parts H hH blake256 h256 s fee bs m x hf hy hm hx
  have hax := (auxSize_of (packageCrypto H blake256) h256 s.metadata m).1
  obtain ⟨outs, c1, c2⟩ := body_length _ _ a3 hax
  have each := collect_each _ _ c1
  have hadr : ∀ o ∈ s.outputs ++ [TxOutput.mk s.change (totalIn s.inputs - totalOut s.outputs - f)], ∃ b, marshalAddress o.address = .ok b := by
    intro o ho
    obtain ⟨b, hb⟩ := each _ (List.mem_map_of_mem ho)
    obtain ⟨b', e, -⟩ := bind_ok hb
    exact ⟨b', e⟩
  have hk' : ∀ k ∈ s'.keys, k.length = 96 ∧ leNat (k.take 32) < 2 ^ 255 := fun k h => hk k (hp.keys.mem_iff.2 h)
  have hf' := hp.fits hf
  obtain ⟨fee', bs', hy'⟩ := C77_succeeds H hH blake256 s' hf'.metadata (fun o ho => hadr o (List.mem_append_left _ (hp.outputs.mem_iff.2 ho)))
    (by rw [← hp.change]; exact hadr _ (List.mem_append_right _ List.mem_cons_self)) hk'
  have hm' : ∀ k, marshalMetadata s'.metadata k = .ok m := hp.metadata ▸ hm
  obtain ⟨f', ws', body', b1, b2, b3, b4, b5, -⟩ := session_parts H hH blake256 h256 s' fee' bs' m x hf' hy' hm' hx
  -- the fee
  have eI : s.builder.body.inputs = s.inputs := by simp [Session.builder, setMetadata, SetTTL, AddOutputs, AddInputs, NewTxBuilder]
  have eO : s.builder.body.outputs = s.outputs := by simp [Session.builder, setMetadata, SetTTL, AddOutputs, AddInputs, NewTxBuilder]
  have eI' : s'.builder.body.inputs = s'.inputs := by simp [Session.builder, setMetadata, SetTTL, AddOutputs, AddInputs, NewTxBuilder]
  have eO' : s'.builder.body.outputs = s'.outputs := by simp [Session.builder, setMetadata, SetTTL, AddOutputs, AddInputs, NewTxBuilder]
  have hfo : ∃ o, collect ((feeOuts s.builder).map marshalOutput) = .ok o := by
    apply collect_total
    intro o ho
    unfold feeOuts at ho
    rw [eO] at ho
    have hin : ∃ b, marshalAddress innerAddr = .ok b := innerAddr_marshals
    generalize innerAddr = y at ho hin
    split at ho
    · rcases List.mem_append.1 ho with ho | ho
      · exact hadr o (List.mem_append_left _ ho)
      · rw [List.mem_singleton.1 ho]; exact hin
    · exact hadr o (List.mem_append_left _ ho)
  obtain ⟨fo, hfo⟩ := hfo
  have hfee : f = f' := by
    rw [a2, b2]
    refine minFee_perm (packageCrypto H blake256) h256 _ _ m.length fo (fun k => ⟨m, hm k, rfl⟩) hfo ?_ ?_ hp.metadata hp.ttl rfl rfl hp.protocol
    · rw [eI, eI']; exact hp.inputs
    · rw [eO, eO']; exact hp.outputs
  subst hfee
  obtain rfl : fee' = fee := b1.symm.trans a1
  -- the size
  have hl : bs'.length = bs.length := by
    obtain ⟨outs', d1, d2⟩ := body_length _ _ b3 (by rw [← hp.metadata]; exact hax)
    have hout : (s.outputs ++ [TxOutput.mk s.change (totalIn s.inputs - totalOut s.outputs - f)]).Perm (s'.outputs ++ [TxOutput.mk s'.change (totalIn s'.inputs - totalOut s'.outputs - f)]) := by
      rw [hp.change, totalIn_perm hp.inputs, totalOut_perm hp.outputs]
      exact hp.outputs.append_right _
    obtain ⟨outs2, d3, d4⟩ := collect_perm (hout.map marshalOutput) outs c1
    obtain rfl : outs2 = outs' := Res.ok.inj (d3.symm.trans d1)
    obtain ⟨w1, w2⟩ := witnessesOf_lengths _ (package_key_length H blake256) (package_sig_length H hH blake256) _ _ _ a5
    obtain ⟨w1', w2'⟩ := witnessesOf_lengths _ (package_key_length H blake256) (package_sig_length H hH blake256) _ _ _ b5
    have wl : ws'.length = ws.length := by rw [w1, w1', hp.keys.length_eq]
    have hbl : body'.length = body.length := by
      rw [c2, d2]
      dsimp only
      rw [encArray_perm (hp.inputs.map marshalInput), encArray_perm d4, hp.ttl, hp.metadata]
    rw [a4, b4]
    simp only [List.length_cons, List.length_append]
    rw [hbl, witness_length _ w2 (by rw [w1]; exact hf.keys), witness_length _ w2' (by rw [w1']; exact hf'.keys), wl]
  exact ⟨bs', hy', hl, fun e u => ⟨reordered_valid H hH blake224 blake256 h256 s s' hf hk hp _ bs bs' hy hy' hl e u,
    reordered_valid H hH blake224 blake256 h256 s' s hf' hk' hp.symm _ bs' bs hy' hy hl.symm e u⟩⟩

/-- Two inputs, two outputs and two keys, and the same the other way round. -/
example (H : Hashes) (hH : H.Ok) (bl : Bytes → Bytes) : ∃ s s' : Session, s.Fits ∧ (∀ k ∈ s.keys, k.length = 96 ∧ leNat (k.take 32) < 2 ^ 255) ∧ Reordered s s' ∧
    s.inputs ≠ s'.inputs ∧ s.outputs ≠ s'.outputs ∧ ∃ fee bs, s.Yields (packageCrypto H bl) fee bs := by
  have hk : ∀ k ∈ [sampleKey, sampleKey], k.length = 96 ∧ leNat (k.take 32) < 2 ^ 255 := by
    intro k h
    simp only [List.mem_cons, List.not_mem_nil, or_false, or_self] at h
    rw [h]; exact sampleKey_ok
  have ha : AddressFits (.base MainNet goldenPayment goldenStake) := (by decide +kernel : (Addr.bytes (.base MainNet goldenPayment goldenStake)).length < 2 ^ 63)
  refine ⟨⟨⟨44, 155381, 16384, 1000000⟩, [sampleKey, sampleKey], [⟨List.replicate 32 7, 0, 10000000⟩, ⟨List.replicate 32 8, 3, 20000000⟩],
      [⟨.base MainNet goldenPayment goldenStake, 5000000⟩, ⟨.enterprise MainNet goldenPayment, 6000000⟩], 1000, none, .base MainNet goldenPayment goldenStake⟩,
    ⟨⟨44, 155381, 16384, 1000000⟩, [sampleKey, sampleKey], [⟨List.replicate 32 8, 3, 20000000⟩, ⟨List.replicate 32 7, 0, 10000000⟩],
      [⟨.enterprise MainNet goldenPayment, 6000000⟩, ⟨.base MainNet goldenPayment goldenStake, 5000000⟩], 1000, none, .base MainNet goldenPayment goldenStake⟩,
    ⟨by decide, by decide, by decide, by decide, ?_, ha, .inl rfl⟩, hk, ⟨.swap _ _ _, .swap _ _ _, .refl _, rfl, rfl, rfl, rfl⟩, by decide, ?_, ?_⟩
  · intro o ho
    simp only [List.mem_cons, List.not_mem_nil, or_false] at ho
    rcases ho with rfl | rfl
    · exact ha
    · exact (by decide +kernel : (Addr.bytes (.enterprise MainNet goldenPayment)).length < 2 ^ 63)
  · intro h
    injection h with h
    injection h with h
    cases h
  · refine C77_succeeds H hH bl _ (.inl rfl) ?_ ⟨_, rfl⟩ hk
    intro o ho
    simp only [List.mem_cons, List.not_mem_nil, or_false] at ho
    rcases ho with rfl | rfl
    · exact ⟨_, rfl⟩
    · exact ⟨_, rfl⟩

end Cardano.Props
