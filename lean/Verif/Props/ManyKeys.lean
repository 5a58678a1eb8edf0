import Verif.Props.Manual
import Verif.Props.Chain
/-!
# Property C134: a wallet of many keys, paying by hand, goes on
-/
set_option autoImplicit false

namespace Cardano.Props
open Cbor TxSpec Transaction TxBuilder Addr Bip32
open ByHand (feePass feeLoop signWith pay)
open Ledger (read seen refOf outOf witOf Env UTxO OutputAddress readAux)

/-- The program `pay` of C100, for a caller who keeps hold of the transaction: the draft with the fee found, the fee taken from the change, signed with all keys, serialised. -/
def PaysBytes (C : Crypto) (p : ByHand.Payment) (t : Tx) (bs : Bytes) : Prop :=
  ∃ d kd k, feeLoop C p.fees 5 p.draft 0 = .ok (d, kd) ∧
    signWith C p.keys { d with body := { d.body with outputs := p.outputs ++ [⟨p.change, totalIn p.inputs - totalOut p.outputs - d.body.fee⟩] } } kd = .ok (t, k) ∧
    Transaction.bytes C t k = .ok bs

/-- It is the same program. -/
theorem paysBytes_iff (C : Crypto) (p : ByHand.Payment) (bs : Bytes) : (∃ t, PaysBytes C p t bs) ↔ pay C p = .ok bs := by
  constructor
  · rintro ⟨t, d, kd, k, h1, h2, h3⟩
    unfold pay
    rw [h1]
    simp only [Res.ok_bind]
    rw [h2]
    exact h3
  · intro h
    obtain ⟨⟨d, kd⟩, h1, h⟩ := bind_ok h
    obtain ⟨⟨t, k⟩, h2, h3⟩ := bind_ok h
    exact ⟨t, d, kd, k, h1, h2, h3⟩

theorem feeLoop_keeps (C : Crypto) (l : LinearFee) (n : Nat) : ∀ (t : Tx) (k : Nat) (t' : Tx) (k' : Nat), feeLoop C l n t k = .ok (t', k') →
    t'.body.inputs = t.body.inputs ∧ t'.metadata = t.metadata ∧ (t.metadata = none → t'.body.auxHash = t.body.auxHash) := by
  induction n with
  | zero =>
    intro t k t' k' h
    have h := Res.ok.inj h
    injection h with h _
    subst h
    exact ⟨rfl, rfl, fun _ => rfl⟩
  | succ n ih =>
    intro t k t' k' h
    obtain ⟨⟨t1, k1⟩, h1, h⟩ := bind_ok h
    obtain ⟨f, -, h1⟩ := bind_ok h1
    have h1 := Res.ok.inj h1
    injection h1 with h1 _
    have hk := ih t1 k1 t' k' h
    have ha : (afterAux C t k).body.inputs = t.body.inputs ∧ (afterAux C t k).metadata = t.metadata ∧ (t.metadata = none → (afterAux C t k).body.auxHash = t.body.auxHash) := by
      cases hm : t.metadata with
      | none =>
        have : afterAux C t k = t := by unfold afterAux calcAux; rw [hm]; cases t; cases hm; rfl
        rw [this]; exact ⟨rfl, hm, fun _ => rfl⟩
      | some d =>
        unfold afterAux calcAux
        rw [hm]
        dsimp only
        cases d.enc k with
        | ok y => exact ⟨rfl, rfl, nofun⟩
        | err y => exact ⟨rfl, hm, nofun⟩
        | panic => exact ⟨rfl, hm, nofun⟩
    have e1 : t1.body.inputs = (afterAux C t k).body.inputs := by rw [← h1]; rfl
    have e2 : t1.metadata = (afterAux C t k).metadata := by rw [← h1]; rfl
    have e3 : t1.body.auxHash = (afterAux C t k).body.auxHash := by rw [← h1]; rfl
    refine ⟨by rw [hk.1, e1, ha.1], by rw [hk.2.1, e2, ha.2.1], fun hn => ?_⟩
    rw [hk.2.2 (by rw [e2, ha.2.1]; exact hn), e3, ha.2.2 hn]

/-- The signed transaction: what it spends and pays, and that `Hash` gives the id the ledger knows it by. -/
theorem paysBytes_parts (H : Hashes) (hH : H.Ok) (blake256 : Bytes → Bytes) (h256 : ∀ m, (blake256 m).length = 32) (p : ByHand.Payment) (t : Tx) (bs : Bytes)
    (hmd : GoodMetadata p.metadata) (hi : ∀ i ∈ p.inputs, i.txHash.length = 32) (hil : p.inputs.length < 2 ^ 63) (hol : p.outputs.length < 2 ^ 62)
    (ho : ∀ o ∈ p.outputs, OutputAddress (Addr.bytes o.address)) (hc : OutputAddress (Addr.bytes p.change)) (hkl : p.keys.length < 2 ^ 63)
    (h : PaysBytes (packageCrypto H blake256) p t bs) (v : Ledger.TxView) (hv : read bs = some v) :
    t.body.outputs = p.outputs ++ [⟨p.change, totalIn p.inputs - totalOut p.outputs - t.body.fee⟩] ∧
      (∃ d kd, feeLoop (packageCrypto H blake256) p.fees 5 p.draft 0 = .ok (d, kd) ∧ d.body.fee = t.body.fee) ∧
      ∀ k, Transaction.hash (packageCrypto H blake256) t k = .ok (blake256 v.body) := by
  obtain ⟨m, x, hm, hx, -⟩ := goodMetadata_enc _ hmd
  obtain ⟨d, kd, k, h1, h2, h3⟩ := h
  have hCH : ∀ m, ((packageCrypto H blake256).blake256 m).length = 32 := h256
  have hbl : (packageCrypto H blake256).blake256 = blake256 := rfl
  have hkey := package_key_length H blake256
  have hsig := package_sig_length H hH blake256
  generalize packageCrypto H blake256 = C at *
  obtain ⟨k1, k2, k3⟩ := feeLoop_keeps C p.fees 5 p.draft 0 d kd h1
  have dI : p.draft.body.inputs = p.inputs := by
    simp only [ByHand.Payment.draft, ByHand.setWitness, ByHand.setMetadata, ByHand.setTTL, ByHand.AddOutputs, ByHand.AddInputs, ByHand.NewTx, List.nil_append]
    exact List.take_append_drop 1 p.inputs
  have dM : p.draft.metadata = p.metadata := rfl
  rw [dI] at k1
  rw [dM] at k2
  generalize hd' : ({ d with body := { d.body with outputs := p.outputs ++ [⟨p.change, totalIn p.inputs - totalOut p.outputs - d.body.fee⟩] } } : Tx) = d' at h2
  have e1 : d'.body.inputs = p.inputs := by rw [← hd']; exact k1
  have e2 : d'.body.outputs = p.outputs ++ [⟨p.change, totalIn p.inputs - totalOut p.outputs - d.body.fee⟩] := by rw [← hd']
  have e3 : d'.body.fee = d.body.fee := by rw [← hd']
  have e4 : d'.metadata = p.metadata := by rw [← hd']; exact k2
  have hca : ∀ k, calcAux C d' k = .ok { d'.body with auxHash := auxOf C d'.metadata d'.body.auxHash m } := fun k => calcAux_of C d' m k (by rw [e4]; exact hm k)
  obtain ⟨msg, s1, h2⟩ := bind_ok h2
  obtain ⟨ws, s2, h2⟩ := bind_ok h2
  have h2 := Res.ok.inj h2
  injection h2 with h2 _
  have hwl := witnessesOf_lengths C hkey hsig _ _ _ s2
  have hnw : ByHand.NewTXWitness ws = ws := by
    unfold ByHand.NewTXWitness
    split
    · rename_i h; exact (List.length_eq_zero_iff.1 h).symm
    · rfl
  have ht : t = ⟨{ d'.body with auxHash := auxOf C d'.metadata d'.body.auxHash m }, ws, d'.valid, d'.metadata⟩ := by
    rw [← h2]
    unfold ByHand.setWitness afterAux
    rw [hca, hnw]
  generalize hb : ({ d'.body with auxHash := auxOf C d'.metadata d'.body.auxHash m } : TxBody) = b at *
  have b1 : b.inputs = p.inputs := by rw [← hb]; exact e1
  have b2 : b.outputs = p.outputs ++ [⟨p.change, totalIn p.inputs - totalOut p.outputs - d.body.fee⟩] := by rw [← hb]; exact e2
  have b3 : b.fee = d.body.fee := by rw [← hb]; exact e3
  have ba : b.auxHash.length < 2 ^ 63 := by
    cases hc : p.metadata with
    | none =>
      rw [← hb]
      show (auxOf C d'.metadata d'.body.auxHash m).length < _
      rw [e4, hc]
      show d'.body.auxHash.length < _
      rw [← hd']
      show d.body.auxHash.length < _
      rw [k3 (dM.trans hc)]
      exact (by decide : 0 < 2 ^ 63)
    | some y =>
      rw [← hb]
      show (auxOf C d'.metadata d'.body.auxHash m).length < _
      rw [e4, hc]
      show (C.blake256 m).length < _
      rw [hCH]; decide
  have htc : ∀ k, calcAux C t k = .ok b := by
    intro k
    rw [ht, calcAux_of C _ m k (by dsimp only; rw [e4]; exact hm k), ← hb]
    dsimp only
    rw [auxOf_idem]
  have tb : t.body = b := by rw [ht]
  have tw : t.witness = ws := by rw [ht]
  have tm : t.metadata = p.metadata := by rw [ht]; exact e4
  unfold Transaction.bytes at h3
  rw [htc] at h3
  simp only [Res.ok_bind] at h3
  obtain ⟨body, m', g1, g2, g3⟩ := marshalTx_parts _ _ _ h3
  have g2 : marshalMetadata t.metadata (k + 1) = .ok m' := g2
  rw [tm, hm] at g2
  have g2 := Res.ok.inj g2
  subst g2
  have g1 : marshalBody b = .ok body := g1
  refine ⟨?_, ⟨d, kd, h1, ?_⟩, ?_⟩
  · rw [tb, b2, b3]
  · rw [tb, b3]
  intro k'
  unfold Transaction.hash
  rw [htc]
  simp only [Res.ok_bind, g1]
  show Res.ok (C.blake256 body) = _
  rw [hbl]
  have hbf : BodyFits b := by
    refine ⟨by rw [b1]; exact hil, by rw [b2, List.length_append, List.length_singleton]; omega, ?_, ?_, ba⟩
    · intro i hi'; rw [b1] at hi'; rw [hi i hi']; decide
    · intro o ho'
      rw [b2] at ho'
      rcases List.mem_append.1 ho' with ho' | ho'
      · exact outputAddress_fits _ (ho o ho')
      · rw [List.mem_singleton.1 ho']; exact outputAddress_fits _ hc
  have hread := Ledger.read_bytes b ws t.valid body m x hbf ⟨by rw [hwl.1]; exact hkl, fun w hw => by have := hwl.2 w hw; omega⟩ g1 hx
  have g3 : bs = 0x84 :: (body ++ marshalWitness t.witness ++ encBool t.valid ++ m) := g3
  rw [← tw, ← g3] at hread
  dsimp only at hread
  rw [hv] at hread
  obtain ⟨aux, -, rfl, -⟩ := Ledger.assemble_of _ _ _ _ _ _ _ _ hread.symm
  rfl

/-! ### The wallet -/

/-- A private key as the package makes it (C34). -/
def FitKey (key : Bytes) : Prop := key.length = 96 ∧ leNat (key.take 32) < 2 ^ 255

/-- The user knows unspent outputs, each once, with the right amounts, and for each the private key it is locked with: as a wallet that derives a new key for every address. -/
structure HoldsKeys (blake224 : Bytes → Bytes) (C : Crypto) (u : UTxO) (known : List (TxInput × Bytes)) : Prop where
  each : ∀ c ∈ known, c.1.txHash.length = 32 ∧ FitKey c.2 ∧ ∃ pk a, C.publicKey c.2 = .ok pk ∧ u (refOf c.1) = some (a, c.1.amount.toNat) ∧ PaysTo blake224 a pk
  once : (known.map fun c => refOf c.1).Nodup

/-- The sum of what is known. -/
def holding (known : List (TxInput × Bytes)) : Nat := sumIn (known.map (·.1))

/-- A payment by hand from chosen outputs, signed with the keys of all of them (and others perhaps), with change to any own key, an unused one for example. -/
structure HandPayment (blake224 : Bytes → Bytes) (C : Crypto) (e : Env) (known chosen : List (TxInput × Bytes)) (changeKey : Bytes) (p : ByHand.Payment) : Prop where
  fromKnown : ∀ c ∈ chosen, c ∈ known
  once : chosen.Nodup
  some : chosen ≠ []
  count : chosen.length < 2 ^ 63
  inputs : p.inputs = chosen.map (·.1)
  signs : ∀ c ∈ chosen, c.2 ∈ p.keys
  keys : ∀ k ∈ p.keys, FitKey k
  keyCount : p.keys.length < 2 ^ 63
  outputs : ∀ o ∈ p.outputs, Receives e.network (Addr.bytes o.address) ∧ e.minUTxOValue ≤ o.amount.toNat
  few : p.outputs.length < 2 ^ 16
  change : Receives e.network (Addr.bytes p.change)
  own : FitKey changeKey ∧ ∃ pk, C.publicKey changeKey = .ok pk ∧ PaysTo blake224 (Addr.bytes p.change) pk
  metadata : GoodMetadata p.metadata
  ttl : p.ttl ≠ 0 → e.slot < p.ttl.toNat
  fees : e.minFeeA = p.fees.txFeePerByte.toNat ∧ e.minFeeB = p.fees.txFeeFixed.toNat
  size : ∃ ds, Transaction.bytes C p.draft 0 = .ok ds ∧ ds.length + 8 ≤ e.maxTxSize
  limits : e.maxTxSize < 2 ^ 61 ∧ p.fees.txFeeFixed.toNat + p.fees.txFeePerByte.toNat * e.maxTxSize < 2 ^ 64
  cover : ∀ d k, feeLoop C p.fees 5 p.draft 0 = .ok (d, k) → sumOut p.outputs + d.body.fee.toNat + e.minUTxOValue ≤ sumIn p.inputs

/-- What the user knows after a payment: what was not spent, and the change, under the id that `Hash` returns and the position of the last output. -/
def heldAfter (C : Crypto) (t : Tx) (changeKey : Bytes) (known chosen : List (TxInput × Bytes)) : List (TxInput × Bytes) :=
  known.filter (fun c => c ∉ chosen) ++
    match Transaction.hash C t 0 with
    | .ok id => [(NewTxInput (Hex.encode id) (UInt16.ofNat (t.body.outputs.length - 1)) (changeAmount t), changeKey)]
    | _ => []

theorem holding_append (a b : List (TxInput × Bytes)) : holding (a ++ b) = holding a + holding b := by
  unfold holding; rw [List.map_append, sumIn_append]

theorem holding_filter (known chosen : List (TxInput × Bytes)) (hn : known.Nodup) (hi : chosen.Nodup) (hs : ∀ c ∈ chosen, c ∈ known) :
    holding (known.filter (fun c => c ∉ chosen)) + holding chosen = holding known := by
  have h1 : (known.filter (fun c => c ∈ chosen)).Perm chosen := by
    rw [List.perm_ext_iff_of_nodup (hn.filter _) hi]
    intro a
    simp only [List.mem_filter, decide_eq_true_eq]
    exact ⟨fun h => h.2, fun h => ⟨hs a h, h⟩⟩
  have h2 : holding (known.filter (fun c => c ∈ chosen)) = holding chosen := by
    unfold holding sumIn
    exact ((h1.map _).map _).sum_eq
  have h3 : ∀ l : List (TxInput × Bytes), holding (l.filter (fun c => c ∉ chosen)) + holding (l.filter (fun c => c ∈ chosen)) = holding l := by
    intro l
    induction l with
    | nil => rfl
    | cons a l ih =>
      by_cases c : a ∈ chosen
      · simp only [List.filter_cons, c, decide_true, not_true_eq_false, decide_false, if_true, Bool.false_eq_true, if_false]
        simp only [holding, sumIn, List.map_cons, List.sum_cons] at ih ⊢
        omega
      · simp only [List.filter_cons, c, not_false_eq_true, decide_true, decide_false, if_true, Bool.false_eq_true, if_false]
        simp only [holding, sumIn, List.map_cons, List.sum_cons] at ih ⊢
        omega
  rw [← h2]
  exact h3 known

/-- **C134, one payment.** Signing by hand succeeds, the ledger accepts, `Hash` gives the id; afterwards the recipients own what they were sent, and the user owns what was not
spent and the change, with the right keys. The id must be new to the user. -/
theorem C134_payment (H : Hashes) (hH : H.Ok) (blake224 blake256 : Bytes → Bytes) (h256 : ∀ m, (blake256 m).length = 32)
    (e : Env) (u : UTxO) (known chosen : List (TxInput × Bytes)) (changeKey : Bytes) (p : ByHand.Payment)
    (ho : HoldsKeys blake224 (packageCrypto H blake256) u known) (hI : holding known < 2 ^ 64)
    (hp : HandPayment blake224 (packageCrypto H blake256) e known chosen changeKey p) :
    (∃ t bs, PaysBytes (packageCrypto H blake256) p t bs) ∧
    ∀ t bs, PaysBytes (packageCrypto H blake256) p t bs →
      ∃ v id, read bs = some v ∧ Ledger.Accepts (ledgerCrypto H blake224 blake256) e u v ∧
        (∀ k, Transaction.hash (packageCrypto H blake256) t k = .ok id) ∧
        ((∀ c ∈ known, c.1.txHash ≠ id) →
          HoldsKeys blake224 (packageCrypto H blake256) (Ledger.apply (ledgerCrypto H blake224 blake256) u v) (heldAfter (packageCrypto H blake256) t changeKey known chosen) ∧
          holding (heldAfter (packageCrypto H blake256) t changeKey known chosen) + sumOut p.outputs + t.body.fee.toNat = holding known ∧
          ∀ j o, p.outputs[j]? = some o → Ledger.apply (ledgerCrypto H blake224 blake256) u v (id, j) = some (Addr.bytes o.address, o.amount.toNat)) := by
  have hnd : known.Nodup := List.Nodup.of_map _ ho.once
  have hsum := holding_filter known chosen hnd hp.once hp.fromKnown
  have hch : holding chosen = sumIn p.inputs := by rw [hp.inputs]; rfl
  have hinj : ∀ c ∈ known, ∀ c' ∈ known, refOf c.1 = refOf c'.1 → c = c' := fun c h c' h' e => List.inj_on_of_nodup_map ho.once h h' e
  have hdis : (p.inputs.map refOf).Nodup := by
    rw [hp.inputs, List.map_map]
    refine List.Nodup.map_on ?_ hp.once
    intro a ha b hb hab
    exact hinj a (hp.fromKnown a ha) b (hp.fromKnown b hb) hab
  have hids : ∀ i ∈ p.inputs, i.txHash.length = 32 := by
    intro i hi
    rw [hp.inputs] at hi
    obtain ⟨c, hc, rfl⟩ := List.mem_map.1 hi
    exact (ho.each c (hp.fromKnown c hc)).1
  -- the public keys of the chosen outputs
  obtain ⟨pks, hpk, hag⟩ : ∃ pks : List Bytes, (∀ pk ∈ pks, ∃ key ∈ p.keys, (packageCrypto H blake256).publicKey key = .ok pk) ∧ Agrees blake224 u pks p.inputs := by
    refine ⟨p.keys.filterMap (fun k => match (packageCrypto H blake256).publicKey k with | .ok pk => some pk | _ => none), ?_, hids, ?_⟩
    · intro pk h
      obtain ⟨k, hk, e⟩ := List.mem_filterMap.1 h
      refine ⟨k, hk, ?_⟩
      revert e
      cases (packageCrypto H blake256).publicKey k with
      | ok x => intro e; rw [Option.some.inj e]
      | err x => intro e; cases e
      | panic => intro e; cases e
    · intro i hi
      rw [hp.inputs] at hi
      obtain ⟨c, hc, rfl⟩ := List.mem_map.1 hi
      obtain ⟨-, -, pk, a, h1, h2, h3⟩ := ho.each c (hp.fromKnown c hc)
      exact ⟨a, h2, pk, List.mem_filterMap.2 ⟨c.2, hp.signs c hc, by rw [h1]⟩, h3⟩
  obtain ⟨ds, hds, hsz⟩ := hp.size
  obtain ⟨m, x, hm, -⟩ := goodMetadata_enc _ hp.metadata
  have hmul := Nat.mul_le_mul_left p.fees.txFeePerByte.toNat hsz
  obtain ⟨d, kd, hd, -⟩ := C98_five_passes (packageCrypto H blake256) h256 p.fees p.draft 0 m.length ds (fun k => ⟨m, hm k, rfl⟩) (.inl rfl) hds
    (by have := hp.limits.1; omega) (by have := hp.limits.2; omega)
  have hcov := hp.cover d kd hd
  obtain ⟨bs0, v, q1, q2, q3, v1, v2, v3, -⟩ := C100_pay_accepted H hH blake224 blake256 h256 p pks u e ds d kd hp.keys hp.keyCount hpk hag
    (by rw [hp.inputs]; simpa using hp.some) hdis (by rw [hp.inputs, List.length_map]; exact hp.count) hp.outputs (by have := hp.few; omega) hp.change hp.metadata hp.ttl hp.fees
    hds hsz hp.limits.1 hp.limits.2 hd (by omega) hcov
  obtain ⟨t0, ht0⟩ := (paysBytes_iff _ p bs0).2 q1
  refine ⟨⟨t0, bs0, ht0⟩, fun t bs ht => ?_⟩
  have hbs : bs = bs0 := Res.ok.inj (((paysBytes_iff _ p bs).1 ⟨t, ht⟩).symm.trans q1)
  subst hbs
  obtain ⟨tO, ⟨d', kd', hd', hfee⟩, hid⟩ := paysBytes_parts H hH blake256 h256 p t bs hp.metadata hids (by rw [hp.inputs, List.length_map]; exact hp.count)
    (by have := hp.few; omega) (fun o h => (hp.outputs o h).1.1) hp.change.1 hp.keyCount ht v q2
  have hdd := Res.ok.inj (hd.symm.trans hd')
  injection hdd with hdd _
  rw [← hdd] at hfee
  rw [hfee] at hcov v2 v3
  refine ⟨v, blake256 v.body, q2, q3, hid, fun hnew => ?_⟩
  have hca : (totalIn p.inputs - totalOut p.outputs - t.body.fee).toNat = sumIn p.inputs - sumOut p.outputs - t.body.fee.toNat := by
    have := change_toNat p.inputs p.outputs t.body.fee.toNat (by omega) (by omega)
    rwa [UInt64.ofNat_toNat] at this
  have hchg : changeAmount t = totalIn p.inputs - totalOut p.outputs - t.body.fee := by
    unfold changeAmount
    rw [tO, List.getLast?_append]
    rfl
  have hnewin : heldAfter (packageCrypto H blake256) t changeKey known chosen = known.filter (fun c => c ∉ chosen) ++
      [(⟨blake256 v.body, UInt16.ofNat p.outputs.length, totalIn p.inputs - totalOut p.outputs - t.body.fee⟩, changeKey)] := by
    unfold heldAfter
    rw [hid 0]
    dsimp only
    rw [hchg, tO, List.length_append, List.length_singleton, Nat.add_sub_cancel]
    unfold NewTxInput
    rw [hex_decode_of (isHexOf_encode _)]
  have hix : (UInt16.ofNat p.outputs.length).toNat = p.outputs.length := by
    rw [UInt16.toNat_ofNat', Nat.mod_eq_of_lt hp.few]
  have happ : ∀ j, Ledger.apply (ledgerCrypto H blake224 blake256) u v (blake256 v.body, j) =
      (p.outputs.map outOf ++ [(Addr.bytes p.change, sumIn p.inputs - sumOut p.outputs - t.body.fee.toNat)])[j]? := by
    intro j
    unfold Ledger.apply
    rw [if_pos (show blake256 v.body = (ledgerCrypto H blake224 blake256).hash256 v.body from rfl), v2]
  have hold : ∀ c ∈ known, c ∉ chosen → Ledger.apply (ledgerCrypto H blake224 blake256) u v (refOf c.1) = u (refOf c.1) := by
    intro c hi hni
    unfold Ledger.apply
    rw [if_neg (show ¬ (refOf c.1).1 = (ledgerCrypto H blake224 blake256).hash256 v.body from hnew c hi), if_neg]
    rw [v1, hp.inputs, List.map_map]
    intro hc
    obtain ⟨j, hj, e⟩ := List.mem_map.1 hc
    have := hinj j (hp.fromKnown j hj) c hi e
    exact hni (this ▸ hj)
  refine ⟨⟨?_, ?_⟩, ?_, ?_⟩
  · intro c hi
    rw [hnewin] at hi
    rcases List.mem_append.1 hi with hi | hi
    · obtain ⟨h1, h2⟩ := List.mem_filter.1 hi
      have h2 : c ∉ chosen := by simpa using h2
      rw [hold c h1 h2]
      exact ho.each c h1
    · rw [List.mem_singleton.1 hi]
      obtain ⟨g1, pk, g2, g3⟩ := hp.own
      refine ⟨h256 _, g1, pk, Addr.bytes p.change, g2, ?_, g3⟩
      show Ledger.apply _ u v (blake256 v.body, (UInt16.ofNat p.outputs.length).toNat) = _
      rw [hix, happ, List.getElem?_append_right (by rw [List.length_map])]
      rw [List.length_map, Nat.sub_self]
      show some _ = some _
      rw [hca]
  · rw [hnewin, List.map_append, List.nodup_append]
    refine ⟨?_, by simp, ?_⟩
    · exact ho.once.sublist (List.Sublist.map _ List.filter_sublist)
    · intro a ha b hb e
      obtain ⟨c, hi, rfl⟩ := List.mem_map.1 ha
      have hb := List.mem_singleton.1 hb
      rw [hb] at e
      have e := congrArg Prod.fst e
      exact hnew c (List.mem_filter.1 hi).1 e
  · rw [hnewin, holding_append]
    have : holding [((⟨blake256 v.body, UInt16.ofNat p.outputs.length, totalIn p.inputs - totalOut p.outputs - t.body.fee⟩ : TxInput), changeKey)] =
        sumIn p.inputs - sumOut p.outputs - t.body.fee.toNat := by
      show (totalIn p.inputs - totalOut p.outputs - t.body.fee).toNat + 0 = _
      rw [hca, Nat.add_zero]
    rw [this]
    omega
  · intro j o hj
    rw [happ, List.getElem?_append_left (by
      rw [List.length_map]
      exact (List.getElem?_eq_some_iff.1 hj).1), List.getElem?_map, hj]
    rfl

/-- What happens to such a wallet: a payment that the ledger accepts, or refuses, or that cannot be made; an output the user is told of; transactions of others. -/
inductive HandEvent where
  | paid (p : ByHand.Payment) (t : Tx)
  | refused (p : ByHand.Payment)
  | failed (p : ByHand.Payment)
  | received (i : TxInput)
  | others

/-- What the user pays in an event, with the fee. -/
def HandEvent.out : HandEvent → Nat
  | .paid p t => sumOut p.outputs + t.body.fee.toNat
  | _ => 0

/-- What the user receives in an event. -/
def HandEvent.into : HandEvent → Nat
  | .received i => i.amount.toNat
  | _ => 0

/-- One event: as in C108, with a key for every output. -/
inductive HandHappens (C : Crypto) (LC : Ledger.Crypto) (blake224 : Bytes → Bytes) :
    UTxO × List (TxInput × Bytes) → HandEvent → UTxO × List (TxInput × Bytes) → Prop where
  | paid (u : UTxO) (known chosen : List (TxInput × Bytes)) (e : Env) (changeKey : Bytes) (p : ByHand.Payment) (t : Tx) (bs : Bytes) (v : Ledger.TxView)
      (hp : HandPayment blake224 C e known chosen changeKey p) (hb : PaysBytes C p t bs) (hnew : ∀ id, Transaction.hash C t 0 = .ok id → ∀ c ∈ known, c.1.txHash ≠ id)
      (hv : read bs = some v) (ha : Ledger.Accepts LC e u v) :
      HandHappens C LC blake224 (u, known) (.paid p t) (Ledger.apply LC u v, heldAfter C t changeKey known chosen)
  | refused (u : UTxO) (known chosen : List (TxInput × Bytes)) (e : Env) (changeKey : Bytes) (p : ByHand.Payment) (t : Tx) (bs : Bytes)
      (hp : HandPayment blake224 C e known chosen changeKey p) (hb : PaysBytes C p t bs) (ha : ¬ Ledger.Valid LC e u bs) :
      HandHappens C LC blake224 (u, known) (.refused p) (u, known)
  | failed (u : UTxO) (known chosen : List (TxInput × Bytes)) (e : Env) (changeKey : Bytes) (p : ByHand.Payment)
      (hp : HandPayment blake224 C e known chosen changeKey p) (hb : ∀ bs, pay C p ≠ .ok bs) : HandHappens C LC blake224 (u, known) (.failed p) (u, known)
  | received (u : UTxO) (known : List (TxInput × Bytes)) (i : TxInput) (key pk a : Bytes) (hid : i.txHash.length = 32) (hk : FitKey key) (hpk : C.publicKey key = .ok pk)
      (hu : u (refOf i) = some (a, i.amount.toNat)) (ho : PaysTo blake224 a pk) (hnew : ∀ c ∈ known, refOf c.1 ≠ refOf i) (hsum : holding known + i.amount.toNat < 2 ^ 64) :
      HandHappens C LC blake224 (u, known) (.received i) (u, known ++ [(i, key)])
  | others (u u' : UTxO) (known : List (TxInput × Bytes)) (h : ∀ c ∈ known, u' (refOf c.1) = u (refOf c.1)) : HandHappens C LC blake224 (u, known) .others (u', known)

/-- Any sequence of events. -/
inductive HandRuns (C : Crypto) (LC : Ledger.Crypto) (blake224 : Bytes → Bytes) :
    UTxO × List (TxInput × Bytes) → List HandEvent → UTxO × List (TxInput × Bytes) → Prop where
  | nil (w : UTxO × List (TxInput × Bytes)) : HandRuns C LC blake224 w [] w
  | cons (w w' w'' : UTxO × List (TxInput × Bytes)) (e : HandEvent) (es : List HandEvent) (h : HandHappens C LC blake224 w e w') (hs : HandRuns C LC blake224 w' es w'') :
      HandRuns C LC blake224 w (e :: es) w''

/-- **C134.** A wallet with a key of its own for every output, making its payments by hand: through any number of payments, receipts and transactions of others, on any
network, with changing parameters, no payment fails and none is refused, the user knows the unspent outputs, their amounts and their keys, and their total is what was received
less what was paid and the fees. -/
theorem C134_goes_on (H : Hashes) (hH : H.Ok) (blake224 blake256 : Bytes → Bytes) (h256 : ∀ m, (blake256 m).length = 32)
    (w w' : UTxO × List (TxInput × Bytes)) (es : List HandEvent)
    (hr : HandRuns (packageCrypto H blake256) (ledgerCrypto H blake224 blake256) blake224 w es w')
    (ho : HoldsKeys blake224 (packageCrypto H blake256) w.1 w.2) (hI : holding w.2 < 2 ^ 64) :
    (∀ p, .refused p ∉ es ∧ .failed p ∉ es) ∧ HoldsKeys blake224 (packageCrypto H blake256) w'.1 w'.2 ∧
      holding w'.2 + (es.map HandEvent.out).sum = holding w.2 + (es.map HandEvent.into).sum := by
  induction hr with
  | nil w => exact ⟨fun p => ⟨List.not_mem_nil, List.not_mem_nil⟩, ho, rfl⟩
  | cons w w1 w2 e es h hs ih =>
    have step : (∀ p, e ≠ .refused p ∧ e ≠ .failed p) ∧ HoldsKeys blake224 (packageCrypto H blake256) w1.1 w1.2 ∧ holding w1.2 < 2 ^ 64 ∧ holding w1.2 + e.out = holding w.2 + e.into := by
      cases h with
      | paid u known chosen en changeKey p t bs v hp hb hnew hv ha =>
        obtain ⟨v', id, g1, -, g3, g4⟩ := (C134_payment H hH blake224 blake256 h256 en u known chosen changeKey p ho hI hp).2 t bs hb
        rw [hv] at g1
        injection g1 with g1
        subst g1
        obtain ⟨k1, k2, -⟩ := g4 (hnew id (g3 0))
        have hI : holding known < 2 ^ 64 := hI
        refine ⟨fun s => ⟨nofun, nofun⟩, k1, by dsimp only; omega, ?_⟩
        show holding (heldAfter _ t changeKey known chosen) + (sumOut p.outputs + t.body.fee.toNat) = holding known + 0
        omega
      | refused u known chosen en changeKey p t bs hp hb ha =>
        obtain ⟨v', id, g1, g2, -⟩ := (C134_payment H hH blake224 blake256 h256 en u known chosen changeKey p ho hI hp).2 t bs hb
        exact absurd ⟨v', g1, g2⟩ ha
      | failed u known chosen en changeKey p hp hb =>
        obtain ⟨t, bs, hb'⟩ := (C134_payment H hH blake224 blake256 h256 en u known chosen changeKey p ho hI hp).1
        exact absurd ((paysBytes_iff _ p bs).1 ⟨t, hb'⟩) (hb bs)
      | received u known i key pk a hid hk hpk hu hpay hnew hsum =>
        have e1 : holding (known ++ [(i, key)]) = holding known + i.amount.toNat := by
          rw [holding_append]
          show _ + (i.amount.toNat + 0) = _
          rw [Nat.add_zero]
        refine ⟨fun s => ⟨nofun, nofun⟩, ⟨?_, ?_⟩, by dsimp only; omega, by dsimp only; rw [e1]; rfl⟩
        · intro c hc
          rcases List.mem_append.1 hc with hc | hc
          · exact ho.each c hc
          · rw [List.mem_singleton.1 hc]; exact ⟨hid, hk, pk, a, hpk, hu, hpay⟩
        · dsimp only
          rw [List.map_append, List.nodup_append]
          refine ⟨ho.once, by simp, ?_⟩
          intro x hx y hy e
          obtain ⟨c, hc, rfl⟩ := List.mem_map.1 hx
          exact hnew c hc (e.trans (List.mem_singleton.1 hy))
      | others u u' known h =>
        refine ⟨fun s => ⟨nofun, nofun⟩, ⟨?_, ho.once⟩, hI, rfl⟩
        intro c hc
        dsimp only
        rw [h c hc]
        exact ho.each c hc
    obtain ⟨s1, s2, s3, s4⟩ := step
    obtain ⟨i1, i2, i3⟩ := ih s2 s3
    refine ⟨?_, i2, ?_⟩
    · intro p
      refine ⟨fun h => ?_, fun h => ?_⟩
      · rcases List.mem_cons.1 h with h | h
        · exact (s1 p).1 h.symm
        · exact (i1 p).1 h
      · rcases List.mem_cons.1 h with h | h
        · exact (s1 p).2 h.symm
        · exact (i1 p).2 h
    · simp only [List.map_cons, List.sum_cons]
      omega

/-! ### Examples -/

/-- Two outputs of 10 and 5 ada, locked with two different keys. -/
def twoKeys : List (TxInput × Bytes) :=
  [(⟨List.replicate 32 7, 0, 10000000⟩, sampleKey), (⟨List.replicate 32 7, 1, 5000000⟩, List.replicate 96 2)]

/-- The ledger with these two outputs. -/
def twoUTxO (pk1 pk2 : Bytes) : UTxO :=
  fun r => if r = (List.replicate 32 7, 0) then some (0x61 :: toGolden pk1, 10000000) else if r = (List.replicate 32 7, 1) then some (0x61 :: toGolden pk2, 5000000) else none

/-- C134: both are known; 12 ada are paid from both, the change goes to an address of the first key. -/
theorem many_sample (H : Hashes) (hH : H.Ok) (blake256 : Bytes → Bytes) :
    ∃ pk1 pk2, HoldsKeys toGolden (packageCrypto H blake256) (twoUTxO pk1 pk2) twoKeys ∧
      HandPayment toGolden (packageCrypto H blake256) ⟨44, 155381, 16384, 1000000, 1, 0⟩ twoKeys twoKeys sampleKey (samplePayment [sampleKey, List.replicate 96 2]) := by
  have k2 : FitKey (List.replicate 96 (2 : UInt8)) := by unfold FitKey; decide +kernel
  obtain ⟨_, pk1, -, s1, -⟩ := C37_signature_valid H hH sampleKey sampleKey_ok.1 sampleKey_ok.2 []
  obtain ⟨_, pk2, -, s2, -⟩ := C37_signature_valid H hH (List.replicate 96 2) k2.1 k2.2 []
  have p1 := packageCrypto_publicKey H blake256 sampleKey sampleKey_ok.1 sampleKey_ok.2
  have p2 := packageCrypto_publicKey H blake256 (List.replicate 96 2) k2.1 k2.2
  rw [s1] at p1
  rw [s2] at p2
  have h1 : sizeOf? (Transaction.bytes sampleCrypto (samplePayment [[], []]).draft 0) = some 417 := by decide +kernel
  have h2 : Transaction.bytes (packageCrypto H blake256) (samplePayment [sampleKey, List.replicate 96 2]).draft 0 = Transaction.bytes sampleCrypto (samplePayment [[], []]).draft 0 := rfl
  have h3 : feeAfter sampleCrypto ⟨44, 155381⟩ 5 (samplePayment [[], []]).draft = some (173905, some 421) := by decide +kernel
  have h4 : feeLoop (packageCrypto H blake256) ⟨44, 155381⟩ 5 (samplePayment [sampleKey, List.replicate 96 2]).draft 0 = feeLoop sampleCrypto ⟨44, 155381⟩ 5 (samplePayment [[], []]).draft 0 := rfl
  refine ⟨pk1, pk2, ⟨?_, by decide⟩, ?_⟩
  · intro c hc
    rcases List.mem_cons.1 hc with rfl | hc
    · exact ⟨by decide, sampleKey_ok, pk1, _, p1, if_pos rfl, 0x61, [], by rw [List.append_nil], by decide⟩
    · rw [List.mem_singleton.1 hc]
      exact ⟨by decide, k2, pk2, _, p2, (if_neg (by decide)).trans (if_pos rfl), 0x61, [], by rw [List.append_nil], by decide⟩
  · exact { fromKnown := fun c h => h
            once := by decide +kernel
            some := by unfold twoKeys; exact List.cons_ne_nil _ _
            count := (by decide : 2 < 2 ^ 63)
            inputs := rfl
            signs := by
              intro c hc
              rcases List.mem_cons.1 hc with rfl | hc
              · simp [samplePayment]
              · rw [List.mem_singleton.1 hc]; simp [samplePayment]
            keys := by
              intro k hk
              rcases List.mem_cons.1 hk with rfl | hk
              · exact sampleKey_ok
              · rw [List.mem_singleton.1 hk]; exact k2
            keyCount := (by decide : 2 < 2 ^ 63)
            outputs := by intro o ho; rw [List.mem_singleton.1 ho]; exact ⟨⟨by decide +kernel, _, _, rfl, by decide +kernel⟩, by decide +kernel⟩
            few := (by decide : 1 < 2 ^ 16)
            change := ⟨by decide +kernel, _, _, rfl, by decide +kernel⟩
            own := ⟨sampleKey_ok, pk1, p1, 0x01, goldenStake.payload, by unfold toGolden; decide +kernel, by decide⟩
            metadata := .inl rfl
            ttl := fun h => absurd rfl h
            fees := ⟨rfl, rfl⟩
            size := by
              rw [h2]
              cases e : Transaction.bytes sampleCrypto (samplePayment [[], []]).draft 0 with
              | err _ => rw [e] at h1; cases h1
              | panic => rw [e] at h1; cases h1
              | ok ds =>
                rw [e] at h1
                injection h1 with h1
                exact ⟨ds, rfl, by rw [h1]; decide⟩
            limits := ⟨by decide, by decide⟩
            cover := by
              intro d k hd
              have hd : feeLoop sampleCrypto ⟨44, 155381⟩ 5 (samplePayment [[], []]).draft 0 = .ok (d, k) := h4.symm.trans hd
              unfold feeAfter at h3
              rw [hd] at h3
              injection h3 with h3
              injection h3 with h3 _
              rw [h3]
              decide }

/-- C134: with the events: others transact, then the user pays. The hypotheses are met if the id of the transaction is new. -/
example (H : Hashes) (hH : H.Ok) (blake256 : Bytes → Bytes) (h256 : ∀ m, (blake256 m).length = 32) (hnew : ∀ m, List.replicate 32 7 ≠ blake256 m) :
    ∃ w w' t, HandRuns (packageCrypto H blake256) (ledgerCrypto H toGolden blake256) toGolden w [.others, .paid (samplePayment [sampleKey, List.replicate 96 2]) t] w' ∧
      HoldsKeys toGolden (packageCrypto H blake256) w.1 w.2 ∧ holding w.2 = 15000000 := by
  obtain ⟨pk1, pk2, ho, hp⟩ := many_sample H hH blake256
  obtain ⟨⟨t, bs, hb⟩, hall⟩ := C134_payment H hH toGolden blake256 h256 _ _ _ _ _ _ ho (by decide) hp
  obtain ⟨v, id, g1, g2, g3, -⟩ := hall t bs hb
  obtain ⟨-, -, hid⟩ := paysBytes_parts H hH blake256 h256 _ t bs hp.metadata (by decide) (by decide) (by decide) (fun o h => (hp.outputs o h).1.1) hp.change.1 hp.keyCount hb v g1
  refine ⟨(twoUTxO pk1 pk2, twoKeys), _, t, .cons _ _ _ _ _ (.others _ _ _ fun c _ => rfl)
    (.cons _ _ _ _ _ (.paid _ _ _ _ _ _ t bs v hp hb ?_ g1 g2) (.nil _)), ho, (by decide : holding twoKeys = 15000000)⟩
  intro id' h c hc
  rw [hid 0] at h
  rw [← Res.ok.inj h]
  rcases List.mem_cons.1 hc with rfl | hc
  · exact hnew _
  · rw [List.mem_singleton.1 hc]; exact hnew _

end Cardano.Props
