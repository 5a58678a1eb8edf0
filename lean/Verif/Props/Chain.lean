import Verif.Props.Order
import Verif.Props.Node
/-!
# Properties C108 and C109: a wallet that goes on spending, and transactions submitted twice
-/
set_option autoImplicit false

namespace Cardano.Props
open Cbor TxSpec Transaction TxBuilder Addr Bip32 Spec
open Ledger (read seen refOf outOf witOf Env UTxO OutputAddress readAux)

/-! ### C108 -/

/-- The built transaction with the metadata of the session; its id is the hash of what the ledger takes for the body. -/
theorem built_id (H : Hashes) (hH : H.Ok) (blake256 : Bytes → Bytes) (h256 : ∀ m, (blake256 m).length = 32) (s : Session) (t : Tx) (bs : Bytes)
    (hf : s.Fits) (hb : Built (packageCrypto H blake256) s.builder s.change [] t bs) (v : Ledger.TxView) (hv : read bs = some v) (k : Nat) :
    Transaction.hash (packageCrypto H blake256) t k = .ok (blake256 v.body) := by
  obtain ⟨m, x, hm, hx, -⟩ := goodMetadata_enc _ hf.metadata
  have hy : Finishes (packageCrypto H blake256) (AddChangeIfNeeded (packageCrypto H blake256) s.builder s.change) bs := by
    obtain ⟨h, b', k, e, ev, eb⟩ := hb.run
    exact ⟨h, b', k, e, by rw [ev]; exact eb⟩
  obtain ⟨h, b', k', e, ev, eb⟩ := hb.run
  have e : Build (packageCrypto H blake256) (AddChangeIfNeeded (packageCrypto H blake256) s.builder s.change) = (.ok h, b') := e
  obtain ⟨body, bb, ws, h1, h2, h3, h4, h5⟩ := build_ok _ _ b' h e
  have hv' := view_build _ b' h body ws h4 h5
  rw [ev] at hv'
  have hmd : (AddChangeIfNeeded (packageCrypto H blake256) s.builder s.change).metadata = s.metadata := rfl
  rw [hmd] at hv'
  have hval : (AddChangeIfNeeded (packageCrypto H blake256) s.builder s.change).valid = true := rfl
  generalize hb1 : AddChangeIfNeeded (packageCrypto H blake256) s.builder s.change = b1 at *
  have hd1 : ∀ k, marshalMetadata b1.metadata k = .ok m := fun k => by rw [hmd]; exact hm k
  rw [calcAux_of _ (tx b1) m b1.clock (hd1 _)] at h1
  have h1 : { b1.body with auxHash := auxOf (packageCrypto H blake256) b1.metadata b1.body.auxHash m } = body := Res.ok.inj h1
  have hc : calcAux (packageCrypto H blake256) t k = .ok body := by
    rw [hv', calcAux_of _ _ m k (hm k), ← h1, hmd]
    simp only [auxOf_idem]
  have hhash : Transaction.hash (packageCrypto H blake256) t k = .ok (blake256 bb) := by
    unfold Transaction.hash
    rw [hc]
    show (marshalBody body >>= fun x => pure (blake256 x)) = _
    rw [h2]; rfl
  rw [hhash]
  obtain ⟨hbody, -⟩ := built_parts (packageCrypto H blake256) s.builder s.change [] t bs m hb hm
  obtain ⟨hbp, hbv, body', g1, g2, g3⟩ := built_parts (packageCrypto H blake256) s.builder s.change [] t bs m hb hm
  have eb' : t.body = body := by rw [hv']
  rw [eb', h2] at g1
  have g1 := Res.ok.inj g1
  subst g1
  have hwl := witnessesOf_lengths _ (package_key_length H blake256) (package_sig_length H hH blake256) _ _ _ g3
  have eI : s.builder.body.inputs = s.inputs := by simp [Session.builder, setMetadata, SetTTL, AddOutputs, AddInputs, NewTxBuilder]
  have eO : s.builder.body.outputs = s.outputs := by simp [Session.builder, setMetadata, SetTTL, AddOutputs, AddInputs, NewTxBuilder]
  have eK : s.builder.xprvs ++ [] = s.keys := by rw [List.append_nil]; rfl
  rw [eK] at hwl
  have hwf : WitnessFits t.witness := ⟨by rw [hwl.1]; exact hf.keys, fun w hw => by have := hwl.2 w hw; omega⟩
  have tO : t.body.outputs = s.outputs ++ [⟨s.change, totalIn s.inputs - totalOut s.outputs - (MinFee (packageCrypto H blake256) s.builder).1⟩] := by
    rw [hbp]
    dsimp only
    rw [eI, eO]
  have tI : t.body.inputs = s.inputs := by rw [hbp]; exact eI
  have hbf : BodyFits t.body := by
    refine ⟨by rw [tI]; exact hf.inputs, by rw [tO, List.length_append]; have := hf.outputs; simp only [List.length_singleton]; omega, ?_, ?_, ?_⟩
    · intro i hi
      rw [tI] at hi
      exact hf.ids i hi
    · intro o ho
      rw [tO] at ho
      rcases List.mem_append.1 ho with ho | ho
      · exact hf.addrs o ho
      · rw [List.mem_singleton.1 ho]; exact hf.change
    · rw [hbp]
      show (auxOf _ s.metadata [] m).length < _
      cases s.metadata with
      | none => exact (by decide : 0 < 2 ^ 63)
      | some d => show (blake256 m).length < _; rw [h256]; decide
  have hread := Ledger.read_bytes t.body t.witness t.valid bb m x hbf hwf (by rw [eb']; exact h2) hx
  rw [← g2] at hread
  dsimp only at hread
  rw [hv] at hread
  obtain ⟨aux, -, rfl, -⟩ := Ledger.assemble_of _ _ _ _ _ _ _ _ hread.symm
  rfl

/-- The amount of the change: that of the last output. -/
def changeAmount (t : Tx) : UInt64 := ((t.body.outputs.getLast?).map (·.amount)).getD 0

/-- What the user knows to own after a payment: what was not spent, and the change, under the id returned by `Hash` and the position of the last output. -/
def knownAfter (C : Crypto) (s : Session) (t : Tx) (known : List TxInput) : List TxInput :=
  known.filter (fun i => i ∉ s.inputs) ++
    match Transaction.hash C t 0 with
    | .ok id => [NewTxInput (Hex.encode id) (UInt16.ofNat (t.body.outputs.length - 1)) (changeAmount t)]
    | _ => []

/-- The user knows unspent outputs of the key, each once, with the right amounts. -/
structure Owns (blake224 : Bytes → Bytes) (u : UTxO) (pk : Bytes) (known : List TxInput) : Prop where
  agrees : Agrees blake224 u [pk] known
  once : (known.map refOf).Nodup

/-- A payment from known outputs, with change to the own key, within the conditions of C77. -/
structure Payment (blake224 : Bytes → Bytes) (C : Crypto) (key pk : Bytes) (network slot : Nat) (known : List TxInput) (s : Session) (t : Tx) (bs : Bytes) : Prop where
  keys : s.keys = [key]
  inputs : ∀ i ∈ s.inputs, i ∈ known
  some : s.inputs ≠ []
  once : s.inputs.Nodup
  count : s.inputs.length < 2 ^ 63
  outputs : ∀ o ∈ s.outputs, Receives network (Addr.bytes o.address) ∧ s.protocol.minUTXOValue.toNat ≤ o.amount.toNat
  few : s.outputs.length < 2 ^ 16
  change : Receives network (Addr.bytes s.change)
  own : PaysTo blake224 (Addr.bytes s.change) pk
  metadata : GoodMetadata s.metadata
  ttl : s.ttl ≠ 0 → slot < s.ttl.toNat
  built : Built C s.builder s.change [] t bs
  provisos : FeeProvisos s t.body.fee.toNat
  cover : sumOut s.outputs + t.body.fee.toNat + s.protocol.minUTXOValue.toNat ≤ sumIn s.inputs
  size : bs.length ≤ s.protocol.maxTxSize.toNat

theorem sumIn_filter (known ins : List TxInput) (hn : known.Nodup) (hi : ins.Nodup) (hs : ∀ i ∈ ins, i ∈ known) :
    sumIn (known.filter (fun i => i ∉ ins)) + sumIn ins = sumIn known := by
  have h1 : (known.filter (fun i => i ∈ ins)).Perm ins := by
    rw [List.perm_ext_iff_of_nodup (hn.filter _) hi]
    intro a
    simp only [List.mem_filter, decide_eq_true_eq]
    exact ⟨fun h => h.2, fun h => ⟨hs a h, h⟩⟩
  have h2 : sumIn (known.filter (fun i => i ∈ ins)) = sumIn ins := by
    unfold sumIn
    exact (h1.map _).sum_eq
  have h3 : ∀ l : List TxInput, sumIn (l.filter (fun i => i ∉ ins)) + sumIn (l.filter (fun i => i ∈ ins)) = sumIn l := by
    intro l
    induction l with
    | nil => rfl
    | cons a l ih =>
      by_cases c : a ∈ ins
      · simp only [List.filter_cons, c, decide_true, not_true_eq_false, decide_false, if_true, Bool.false_eq_true, if_false]
        simp only [sumIn, List.map_cons, List.sum_cons] at ih ⊢
        omega
      · simp only [List.filter_cons, c, not_false_eq_true, decide_true, decide_false, if_true, Bool.false_eq_true, if_false]
        simp only [sumIn, List.map_cons, List.sum_cons] at ih ⊢
        omega
  rw [← h2]
  exact h3 known

/-- **C108, one payment.** The ledger accepts it; afterwards the recipients own what they were sent, and the user owns what was not spent and the change, and knows the
references and amounts; the total is smaller by what was sent and the fee. The id must be new to the user. -/
theorem C108_payment (H : Hashes) (hH : H.Ok) (blake224 blake256 : Bytes → Bytes) (h256 : ∀ m, (blake256 m).length = 32)
    (key pk : Bytes) (network slot : Nat) (u : UTxO) (known : List TxInput) (s : Session) (t : Tx) (bs : Bytes)
    (hk : key.length = 96 ∧ leNat (key.take 32) < 2 ^ 255) (hpk : (packageCrypto H blake256).publicKey key = .ok pk)
    (ho : Owns blake224 u pk known) (hI : sumIn known < 2 ^ 64)
    (hp : Payment blake224 (packageCrypto H blake256) key pk network slot known s t bs) :
    ∃ v id, read bs = some v ∧ Ledger.Accepts (ledgerCrypto H blake224 blake256) (envOf s.protocol network slot) u v ∧
      (∀ k, Transaction.hash (packageCrypto H blake256) t k = .ok id) ∧
      ((∀ i ∈ known, i.txHash ≠ id) →
        Owns blake224 (Ledger.apply (ledgerCrypto H blake224 blake256) u v) pk (knownAfter (packageCrypto H blake256) s t known) ∧
        sumIn (knownAfter (packageCrypto H blake256) s t known) + sumOut s.outputs + t.body.fee.toNat = sumIn known ∧
        ∀ j o, s.outputs[j]? = some o → Ledger.apply (ledgerCrypto H blake224 blake256) u v (id, j) = some (Addr.bytes o.address, o.amount.toNat)) := by
  have hnd : known.Nodup := List.Nodup.of_map _ ho.once
  have hsum := sumIn_filter known s.inputs hnd hp.once hp.inputs
  have hdis : (s.inputs.map refOf).Nodup := by
    refine List.Nodup.map_on ?_ hp.once
    intro a ha b hb hab
    exact List.inj_on_of_nodup_map ho.once (hp.inputs a ha) (hp.inputs b hb) hab
  have hag : Agrees blake224 u [pk] s.inputs := ⟨fun i hi => ho.agrees.ids i (hp.inputs i hi), fun i hi => ho.agrees.amounts i (hp.inputs i hi)⟩
  obtain ⟨v, hv, ha, v1, v2, v3, -⟩ := C77_ledger_accepts_partial H hH blake224 blake256 h256 s key pk u network slot t.body.fee.toNat bs hp.keys hk hpk hag hp.some hdis
    hp.count hp.outputs (by have := hp.few; omega) hp.change hp.metadata hp.ttl ⟨t, hp.built, rfl⟩ hp.provisos (by omega) hp.cover hp.size
  have hf : s.Fits := by
    refine ⟨hp.count, by have := hp.few; omega, by rw [hp.keys]; exact (by decide : 1 < 2 ^ 63), ?_, ?_, outputAddress_fits _ hp.change.1, hp.metadata⟩
    · intro i hi
      rw [hag.ids i hi]; decide
    · intro o h
      exact outputAddress_fits _ (hp.outputs o h).1.1
  have hid := fun k => built_id H hH blake256 h256 s t bs hf hp.built v hv k
  refine ⟨v, blake256 v.body, hv, ha, hid, fun hnew => ?_⟩
  -- the outputs of the transaction
  obtain ⟨m, x, hm, -⟩ := goodMetadata_enc _ hp.metadata
  obtain ⟨hbody, -⟩ := built_parts (packageCrypto H blake256) s.builder s.change [] t bs m hp.built hm
  have eI : s.builder.body.inputs = s.inputs := by simp [Session.builder, setMetadata, SetTTL, AddOutputs, AddInputs, NewTxBuilder]
  have eO : s.builder.body.outputs = s.outputs := by simp [Session.builder, setMetadata, SetTTL, AddOutputs, AddInputs, NewTxBuilder]
  have hfee : t.body.fee = (MinFee (packageCrypto H blake256) s.builder).1 := by rw [hbody]
  have tO : t.body.outputs = s.outputs ++ [⟨s.change, totalIn s.inputs - totalOut s.outputs - t.body.fee⟩] := by
    rw [hfee, hbody]
    dsimp only
    rw [eI, eO]
  have hca : (totalIn s.inputs - totalOut s.outputs - t.body.fee).toNat = sumIn s.inputs - sumOut s.outputs - t.body.fee.toNat := by
    have := change_toNat s.inputs s.outputs t.body.fee.toNat (by omega) (by have := hp.cover; omega)
    rwa [UInt64.ofNat_toNat] at this
  have hchg : changeAmount t = totalIn s.inputs - totalOut s.outputs - t.body.fee := by
    unfold changeAmount
    rw [tO, List.getLast?_append]
    rfl
  have hnewin : knownAfter (packageCrypto H blake256) s t known = known.filter (fun i => i ∉ s.inputs) ++
      [⟨blake256 v.body, UInt16.ofNat s.outputs.length, totalIn s.inputs - totalOut s.outputs - t.body.fee⟩] := by
    unfold knownAfter
    rw [hid 0]
    dsimp only
    rw [hchg, tO, List.length_append, List.length_singleton, Nat.add_sub_cancel]
    unfold NewTxInput
    rw [hex_decode_of (isHexOf_encode _)]
  have hix : (UInt16.ofNat s.outputs.length).toNat = s.outputs.length := by
    rw [UInt16.toNat_ofNat', Nat.mod_eq_of_lt hp.few]
  have happ : ∀ j, Ledger.apply (ledgerCrypto H blake224 blake256) u v (blake256 v.body, j) =
      (s.outputs.map outOf ++ [(Addr.bytes s.change, sumIn s.inputs - sumOut s.outputs - t.body.fee.toNat)])[j]? := by
    intro j
    unfold Ledger.apply
    rw [if_pos (show blake256 v.body = (ledgerCrypto H blake224 blake256).hash256 v.body from rfl), v2]
  have hold : ∀ i ∈ known, i ∉ s.inputs → Ledger.apply (ledgerCrypto H blake224 blake256) u v (refOf i) = u (refOf i) := by
    intro i hi hni
    unfold Ledger.apply
    rw [if_neg (show ¬ (refOf i).1 = (ledgerCrypto H blake224 blake256).hash256 v.body from hnew i hi), if_neg]
    rw [v1]
    intro hc
    obtain ⟨j, hj, e⟩ := List.mem_map.1 hc
    have := List.inj_on_of_nodup_map ho.once (hp.inputs j hj) hi e
    exact hni (this ▸ hj)
  refine ⟨⟨⟨?_, ?_⟩, ?_⟩, ?_, ?_⟩
  · intro i hi
    rw [hnewin] at hi
    rcases List.mem_append.1 hi with hi | hi
    · exact ho.agrees.ids i (List.mem_filter.1 hi).1
    · rw [List.mem_singleton.1 hi]; exact h256 _
  · intro i hi
    rw [hnewin] at hi
    rcases List.mem_append.1 hi with hi | hi
    · obtain ⟨h1, h2⟩ := List.mem_filter.1 hi
      have h2 : i ∉ s.inputs := by simpa using h2
      rw [hold i h1 h2]
      exact ho.agrees.amounts i h1
    · rw [List.mem_singleton.1 hi]
      refine ⟨Addr.bytes s.change, ?_, pk, List.mem_singleton.2 rfl, hp.own⟩
      show Ledger.apply _ u v (blake256 v.body, (UInt16.ofNat s.outputs.length).toNat) = _
      rw [hix, happ, List.getElem?_append_right (by rw [List.length_map])]
      rw [List.length_map, Nat.sub_self]
      show some _ = some _
      rw [hca]
  · rw [hnewin, List.map_append, List.nodup_append]
    refine ⟨?_, by simp, ?_⟩
    · exact ho.once.sublist (List.Sublist.map _ List.filter_sublist)
    · intro a ha b hb e
      obtain ⟨i, hi, rfl⟩ := List.mem_map.1 ha
      have hb := List.mem_singleton.1 hb
      rw [hb] at e
      have e := congrArg Prod.fst e
      exact hnew i (List.mem_filter.1 hi).1 e
  · rw [hnewin, sumIn_append]
    have : sumIn [(⟨blake256 v.body, UInt16.ofNat s.outputs.length, totalIn s.inputs - totalOut s.outputs - t.body.fee⟩ : TxInput)] =
        sumIn s.inputs - sumOut s.outputs - t.body.fee.toNat := by
      show (totalIn s.inputs - totalOut s.outputs - t.body.fee).toNat + 0 = _
      rw [hca, Nat.add_zero]
    rw [this]
    have := hp.cover
    omega
  · intro j o hj
    rw [happ, List.getElem?_append_left (by
      rw [List.length_map]
      exact (List.getElem?_eq_some_iff.1 hj).1), List.getElem?_map, hj]
    rfl

/-- What the user and the ledger know. -/
structure WalletState where
  u : UTxO
  known : List TxInput

/-- What happens: a payment of the user that the ledger accepts, or refuses; an output that the user is told of; transactions of others. -/
inductive WalletEvent where
  | paid (s : Session) (t : Tx)
  | refused (s : Session)
  | received (i : TxInput)
  | others

/-- What the user pays in an event, with the fee. -/
def WalletEvent.out : WalletEvent → Nat
  | .paid s t => sumOut s.outputs + t.body.fee.toNat
  | _ => 0

/-- What the user receives in an event. -/
def WalletEvent.into : WalletEvent → Nat
  | .received i => i.amount.toNat
  | _ => 0

/-- One event. A payment is made from what the user knows at that time (in particular from earlier change), at any slot, with any protocol parameters, those of the ledger.
An output that the user is told of exists, is of the user's key and new to the user. Others leave the outputs of the user alone. -/
inductive Happens (C : Crypto) (LC : Ledger.Crypto) (blake224 : Bytes → Bytes) (key pk : Bytes) (network : Nat) : WalletState → WalletEvent → WalletState → Prop where
  | paid (w : WalletState) (slot : Nat) (s : Session) (t : Tx) (bs : Bytes) (v : Ledger.TxView) (hp : Payment blake224 C key pk network slot w.known s t bs)
      (hnew : ∀ id, Transaction.hash C t 0 = .ok id → ∀ i ∈ w.known, i.txHash ≠ id)
      (hv : read bs = some v) (ha : Ledger.Accepts LC (envOf s.protocol network slot) w.u v) :
      Happens C LC blake224 key pk network w (.paid s t) ⟨Ledger.apply LC w.u v, knownAfter C s t w.known⟩
  | refused (w : WalletState) (slot : Nat) (s : Session) (t : Tx) (bs : Bytes) (hp : Payment blake224 C key pk network slot w.known s t bs)
      (ha : ¬ Ledger.Valid LC (envOf s.protocol network slot) w.u bs) : Happens C LC blake224 key pk network w (.refused s) w
  | received (w : WalletState) (i : TxInput) (a : Bytes) (hid : i.txHash.length = 32) (hu : w.u (refOf i) = some (a, i.amount.toNat)) (ho : PaysTo blake224 a pk)
      (hnew : ∀ j ∈ w.known, refOf j ≠ refOf i) (hsum : sumIn w.known + i.amount.toNat < 2 ^ 64) :
      Happens C LC blake224 key pk network w (.received i) ⟨w.u, w.known ++ [i]⟩
  | others (w : WalletState) (u' : UTxO) (h : ∀ i ∈ w.known, u' (refOf i) = w.u (refOf i)) : Happens C LC blake224 key pk network w .others ⟨u', w.known⟩

/-- Any sequence of events. -/
inductive Runs (C : Crypto) (LC : Ledger.Crypto) (blake224 : Bytes → Bytes) (key pk : Bytes) (network : Nat) : WalletState → List WalletEvent → WalletState → Prop where
  | nil (w : WalletState) : Runs C LC blake224 key pk network w [] w
  | cons (w w' w'' : WalletState) (e : WalletEvent) (es : List WalletEvent) (h : Happens C LC blake224 key pk network w e w') (hs : Runs C LC blake224 key pk network w' es w'') :
      Runs C LC blake224 key pk network w (e :: es) w''

/-- **C108.** Through any number of payments, receipts and transactions of others, spending earlier change or not: no payment is refused, the user knows the unspent outputs
of the own key, with their amounts, and their total is what was received less what was paid and the fees. -/
theorem C108_goes_on (H : Hashes) (hH : H.Ok) (blake224 blake256 : Bytes → Bytes) (h256 : ∀ m, (blake256 m).length = 32) (key pk : Bytes) (network : Nat)
    (hk : key.length = 96 ∧ leNat (key.take 32) < 2 ^ 255) (hpk : (packageCrypto H blake256).publicKey key = .ok pk) (w w' : WalletState) (es : List WalletEvent)
    (hr : Runs (packageCrypto H blake256) (ledgerCrypto H blake224 blake256) blake224 key pk network w es w')
    (ho : Owns blake224 w.u pk w.known) (hI : sumIn w.known < 2 ^ 64) :
    (∀ s, .refused s ∉ es) ∧ Owns blake224 w'.u pk w'.known ∧ sumIn w'.known + (es.map WalletEvent.out).sum = sumIn w.known + (es.map WalletEvent.into).sum := by
  induction hr with
  | nil w => exact ⟨fun s h => absurd h List.not_mem_nil, ho, rfl⟩
  | cons w w1 w2 e es h hs ih =>
    have step : (∀ s, e ≠ .refused s) ∧ Owns blake224 w1.u pk w1.known ∧ sumIn w1.known < 2 ^ 64 ∧ sumIn w1.known + e.out = sumIn w.known + e.into := by
      cases h with
      | paid slot s t bs v hp hnew hv ha =>
        obtain ⟨v', id, g1, -, g3, g4⟩ := C108_payment H hH blake224 blake256 h256 key pk network slot w.u w.known s t bs hk hpk ho hI hp
        rw [hv] at g1
        injection g1 with g1
        subst g1
        obtain ⟨k1, k2, -⟩ := g4 (hnew id (g3 0))
        refine ⟨fun s h => by simp at h, k1, by dsimp only; omega, ?_⟩
        show sumIn (knownAfter _ s t w.known) + (sumOut s.outputs + t.body.fee.toNat) = sumIn w.known + 0
        omega
      | refused slot s t bs hp ha =>
        obtain ⟨v', id, g1, g2, -⟩ := C108_payment H hH blake224 blake256 h256 key pk network slot w.u w.known s t bs hk hpk ho hI hp
        exact absurd ⟨v', g1, g2⟩ ha
      | received i a hid hu hpay hnew hsum =>
        have e1 : sumIn (w.known ++ [i]) = sumIn w.known + i.amount.toNat := by
          rw [sumIn_append]
          show _ + (i.amount.toNat + 0) = _
          rw [Nat.add_zero]
        refine ⟨fun s h => by simp at h, ⟨⟨?_, ?_⟩, ?_⟩, by dsimp only; omega, by dsimp only; rw [e1]; rfl⟩
        · intro j hj
          rcases List.mem_append.1 hj with hj | hj
          · exact ho.agrees.ids j hj
          · rw [List.mem_singleton.1 hj]; exact hid
        · intro j hj
          rcases List.mem_append.1 hj with hj | hj
          · exact ho.agrees.amounts j hj
          · rw [List.mem_singleton.1 hj]
            exact ⟨a, hu, pk, List.mem_singleton.2 rfl, hpay⟩
        · dsimp only
          rw [List.map_append, List.nodup_append]
          refine ⟨ho.once, by simp, ?_⟩
          intro x hx y hy e
          obtain ⟨j, hj, rfl⟩ := List.mem_map.1 hx
          exact hnew j hj (e.trans (List.mem_singleton.1 hy))
      | others u' h =>
        refine ⟨fun s h => by simp at h, ⟨⟨ho.agrees.ids, ?_⟩, ho.once⟩, hI, rfl⟩
        intro i hi
        dsimp only
        rw [h i hi]
        exact ho.agrees.amounts i hi
    obtain ⟨s1, s2, s3, s4⟩ := step
    obtain ⟨i1, i2, i3⟩ := ih s2 s3
    refine ⟨?_, i2, ?_⟩
    · intro s h
      rcases List.mem_cons.1 h with h | h
      · exact s1 s h.symm
      · exact i1 s h
    · simp only [List.map_cons, List.sum_cons]
      omega

/-! ### C109 -/

/-- The ledger after further transactions. -/
def afterAll (C : Ledger.Crypto) (u : UTxO) (vs : List Ledger.TxView) : UTxO := vs.foldl (Ledger.apply C) u

theorem afterAll_none (C : Ledger.Crypto) (vs : List Ledger.TxView) (r : Ledger.Ref) (hid : ∀ w ∈ vs, r.1 ≠ C.hash256 w.body) :
    ∀ u : UTxO, u r = none → afterAll C u vs r = none := by
  induction vs with
  | nil => intro u h; exact h
  | cons w vs ih =>
    intro u h
    refine ih (fun x hx => hid x (List.mem_cons_of_mem _ hx)) _ ?_
    unfold Ledger.apply
    rw [if_neg (hid w List.mem_cons_self), h, ite_self]

/-- What was spent is spent for good: ids are not used again. -/
theorem spent_for_good (C : Ledger.Crypto) (u : UTxO) (v : Ledger.TxView) (vs : List Ledger.TxView) (r : Ledger.Ref) (hr : r ∈ v.inputs)
    (hid : ∀ w ∈ v :: vs, r.1 ≠ C.hash256 w.body) : afterAll C (Ledger.apply C u v) vs r = none := by
  refine afterAll_none C vs r (fun x hx => hid x (List.mem_cons_of_mem _ hx)) _ ?_
  unfold Ledger.apply
  rw [if_neg (hid v List.mem_cons_self), if_pos hr]

/-- **C109.** The ledger accepted a transaction of the package and any others after it. It then accepts no transaction of the package that has one of its inputs. -/
theorem C109_spent_once (H : Hashes) (hH : H.Ok) (blake224 blake256 : Bytes → Bytes) (h256 : ∀ m, (blake256 m).length = 32)
    (b b' : Builder) (bs bs' : Bytes) (hf : BuilderFits b) (hf' : BuilderFits b') (hy : Finishes (packageCrypto H blake256) b bs)
    (hy' : Finishes (packageCrypto H blake256) b' bs') (u : UTxO) (e' : Env) (v : Ledger.TxView) (hv : read bs = some v) (vs : List Ledger.TxView)
    (i i' : TxInput) (hi : i ∈ b.body.inputs) (hi' : i' ∈ b'.body.inputs) (hh : i.txHash = i'.txHash) (hx : i.index = i'.index)
    (hid : ∀ w ∈ v :: vs, i.txHash ≠ blake256 w.body) :
    ¬ Ledger.Valid (ledgerCrypto H blake224 blake256) e' (afterAll (ledgerCrypto H blake224 blake256) (Ledger.apply (ledgerCrypto H blake224 blake256) u v) vs) bs' := by
  rintro ⟨v', hv', ha⟩
  obtain ⟨r1, -⟩ := finish_read H hH blake256 h256 b bs hf hy v hv
  obtain ⟨r1', -⟩ := finish_read H hH blake256 h256 b' bs' hf' hy' v' hv'
  have hr : refOf i ∈ v.inputs := by rw [r1]; exact List.mem_map_of_mem hi
  have hr' : refOf i ∈ v'.inputs := by
    have : refOf i = refOf i' := by unfold refOf; rw [hh, hx]
    rw [this, r1']; exact List.mem_map_of_mem hi'
  have h1 := ha.exist _ hr'
  rw [spent_for_good (ledgerCrypto H blake224 blake256) u v vs (refOf i) hr hid] at h1
  exact absurd h1 (by decide)

/-- **C109, the same bytes.** Bytes that the ledger accepted are not accepted again, at any later time. -/
theorem C109_not_twice (LC : Ledger.Crypto) (u : UTxO) (e e' : Env) (bs : Bytes) (v : Ledger.TxView) (hv : read bs = some v) (ha : Ledger.Accepts LC e u v)
    (vs : List Ledger.TxView) (hid : ∀ r ∈ v.inputs, ∀ w ∈ v :: vs, r.1 ≠ LC.hash256 w.body) :
    ¬ Ledger.Valid LC e' (afterAll LC (Ledger.apply LC u v) vs) bs := by
  rintro ⟨v', hv', ha'⟩
  rw [hv] at hv'
  injection hv' with hv'
  subst hv'
  obtain ⟨r, hr⟩ := List.exists_mem_of_ne_nil _ ha.nonempty
  have h1 := ha'.exist _ hr
  rw [spent_for_good LC u v vs r hr (hid r hr)] at h1
  exact absurd h1 (by decide)

/-! ### Examples -/

/-- A hash function for the examples, for which the sample address belongs to every key. -/
def toGolden : Bytes → Bytes := fun _ => goldenPayment.payload

/-- C108: the user is told of 10 ada and pays 5 of them, once. The hypotheses are met if the id of the transaction is new. -/
theorem chain_sample (H : Hashes) (hH : H.Ok) (blake256 : Bytes → Bytes) :
    ∃ pk t bs, (packageCrypto H blake256).publicKey sampleKey = .ok pk ∧
      Owns toGolden (sampleUTxO toGolden pk 10000000) pk [⟨List.replicate 32 7, 0, 10000000⟩] ∧
      Payment toGolden (packageCrypto H blake256) sampleKey pk 1 0 [⟨List.replicate 32 7, 0, 10000000⟩] (sampleSession [sampleKey] 10000000 5000000 sampleAddr) t bs := by
  have hfee : (MinFee (packageCrypto H blake256) (sampleSession [sampleKey] 10000000 5000000 sampleAddr).builder).1 = 167877 := by
    have : (MinFee (packageCrypto H blake256) (sampleSession [sampleKey] 10000000 5000000 sampleAddr).builder).1 = (MinFee sampleCrypto (sampleSession [] 10000000 5000000 sampleAddr).builder).1 := rfl
    rw [this]; decide +kernel
  obtain ⟨bs, hy⟩ := variant_yields H hH blake256 _ rfl (by intro k h; exact List.mem_singleton.1 h) (by intro o h; rw [List.mem_singleton.1 h]) ⟨_, rfl⟩ _ hfee
  obtain ⟨_, pk, -, s2, -⟩ := C37_signature_valid H hH sampleKey sampleKey_ok.1 sampleKey_ok.2 []
  have p1 := packageCrypto_publicKey H blake256 sampleKey sampleKey_ok.1 sampleKey_ok.2
  rw [s2] at p1
  have hlen : bs.length ≤ 16384 := by
    obtain ⟨body, e1, e2⟩ := sample_length H hH blake256 [sampleKey] (by decide : 1 < 2 ^ 63) _ _ _ 167877 _ hy
    have e3 : sizeOf? (marshalBody ⟨[⟨List.replicate 32 7, 0, 10000000⟩], [⟨.base MainNet goldenPayment goldenStake, 5000000⟩, ⟨sampleAddr,
          totalIn [⟨List.replicate 32 7, 0, 10000000⟩] - totalOut [⟨.base MainNet goldenPayment goldenStake, 5000000⟩] - 167877⟩], 167877, 0, []⟩) = some 177 := by
      decide +kernel
    rw [e1] at e3
    injection e3 with e3
    rw [e2, e3]
    decide
  obtain ⟨t, hb, hf⟩ := hy
  refine ⟨pk, t, bs, p1, ⟨⟨?_, ?_⟩, by decide⟩, ?_⟩
  · intro i hi
    rw [List.mem_singleton.1 hi]; decide
  · intro i hi
    rw [List.mem_singleton.1 hi]
    exact ⟨_, if_pos rfl, pk, List.mem_singleton.2 rfl, 0x61, [], by rw [List.append_nil], by decide⟩
  · exact { keys := rfl
            inputs := fun i hi => hi
            some := by decide
            once := by decide
            count := (by decide : 1 < 2 ^ 63)
            outputs := by intro o ho; rw [List.mem_singleton.1 ho]; exact ⟨⟨by decide +kernel, _, _, rfl, by decide +kernel⟩, by decide +kernel⟩
            few := (by decide : 1 < 2 ^ 16)
            change := ⟨by decide +kernel, _, _, rfl, by decide +kernel⟩
            own := ⟨0x01, goldenStake.payload, by unfold toGolden; decide +kernel, by decide⟩
            metadata := .inl rfl
            ttl := fun h => absurd rfl h
            built := hb
            provisos := by rw [hf]; exact ⟨by decide, by decide, by decide, .inr (by decide +kernel), by decide +kernel, by decide⟩
            cover := by rw [hf]; decide
            size := hlen }

/-- C108: with the events. -/
example (H : Hashes) (hH : H.Ok) (blake256 : Bytes → Bytes) (h256 : ∀ m, (blake256 m).length = 32) (hnew : ∀ m, List.replicate 32 7 ≠ blake256 m) :
    ∃ pk w w' s t, (packageCrypto H blake256).publicKey sampleKey = .ok pk ∧ Owns toGolden w.u pk w.known ∧ sumIn w.known < 2 ^ 64 ∧
      Runs (packageCrypto H blake256) (ledgerCrypto H toGolden blake256) toGolden sampleKey pk 1 w
        [.received ⟨List.replicate 32 7, 0, 10000000⟩, .others, .paid s t] w' ∧ s.outputs.length = 1 ∧ w'.known.length = 1 := by
  obtain ⟨pk, t, bs, hpk, ho, hp⟩ := chain_sample H hH blake256
  obtain ⟨v, id, hv, ha, hid, -⟩ := C108_payment H hH toGolden blake256 h256 sampleKey pk 1 0 _ _ _ t bs sampleKey_ok hpk ho (by decide) hp
  have e1 : sampleUTxO toGolden pk 10000000 (List.replicate 32 7, 0) = some (0x61 :: toGolden pk, 10000000) := if_pos rfl
  refine ⟨pk, ⟨sampleUTxO toGolden pk 10000000, []⟩, _, _, t, hpk, ⟨⟨fun i h => absurd h List.not_mem_nil, fun i h => absurd h List.not_mem_nil⟩, List.nodup_nil⟩,
    (by decide : 0 < 2 ^ 64),
    .cons _ _ _ _ _ (.received _ _ _ (by decide) e1 ⟨0x61, [], by rw [List.append_nil], by decide⟩ (fun j h => absurd h List.not_mem_nil) (by decide : 0 + 10000000 < 2 ^ 64))
      (.cons _ _ _ _ _ (.others _ (sampleUTxO toGolden pk 10000000) (fun _ _ => rfl)) (.cons _ _ _ _ _ (.paid _ 0 _ t bs v hp ?_ hv ha) (.nil _))), rfl, ?_⟩
  · intro id' h' i hi
    rw [List.mem_singleton.1 hi]
    obtain ⟨k1, k2⟩ := bind_ok h'
    obtain ⟨k3, k4⟩ := bind_ok k2.2
    rw [← Res.ok.inj k4.2]
    exact hnew _
  · show (knownAfter _ _ t [⟨List.replicate 32 7, 0, 10000000⟩]).length = 1
    unfold knownAfter
    rw [hid 0, List.length_append]
    have : ([⟨List.replicate 32 7, 0, 10000000⟩] : List TxInput).filter (fun i => i ∉ (sampleSession [sampleKey] 10000000 5000000 sampleAddr).inputs) = [] := by decide +kernel
    rw [this]
    rfl

/-- C109: the session of C77, submitted twice. -/
example (H : Hashes) (hH : H.Ok) (blake224 blake256 : Bytes → Bytes) (h256 : ∀ m, (blake256 m).length = 32) (hnew : ∀ m, List.replicate 32 7 ≠ blake256 m) :
    ∃ e u bs v, read bs = some v ∧ Ledger.Accepts (ledgerCrypto H blake224 blake256) e u v ∧
      ∀ r ∈ v.inputs, ∀ w ∈ [v], r.1 ≠ (ledgerCrypto H blake224 blake256).hash256 w.body := by
  obtain ⟨pk, bs, hpk, ⟨t, hb, hf⟩, v, hv, ha⟩ := sample_accepted H hH blake224 blake256 h256
  refine ⟨_, _, bs, v, hv, ha, ?_⟩
  intro r hr w _
  have h1 := ha.exist r hr
  unfold sampleUTxO at h1
  split at h1
  · rename_i h2
    rw [h2]; exact hnew _
  · exact absurd h1 (by decide)

end Cardano.Props
