import Verif.Props.ManyKeys
import Verif.Props.Asked
/-!
# Property C136: enough in hand is enough

C77 and C100 say when a payment is accepted in terms of the fee and the bytes that come out. Here the conditions are on what the user has before anything is built.
-/
set_option autoImplicit false

namespace Cardano.Props
open Cbor TxSpec Transaction TxBuilder Addr Bip32
open ByHand (feePass feeLoop signWith pay)
open Ledger (read seen refOf outOf witOf Env UTxO OutputAddress readAux)

/-- No transaction with so many inputs, outputs (with the change) and keys, to Shelley addresses, and so many bytes of metadata, has more bytes than this. -/
def atMost (inputs outputs keys metadata : Nat) : Nat := 85 + 38 * inputs + 71 * outputs + 101 * keys + metadata

theorem input_bound (i : TxInput) (h : i.txHash.length = 32) : (marshalInput i).length ≤ 38 := by
  have h1 : (encUint (UInt64.ofNat i.index.toNat)).length ≤ 3 := by
    rw [encUint_length, ofNat64 _ (by have := i.index.toNat_lt; omega)]
    have := i.index.toNat_lt
    unfold uintSize
    repeat' split
    all_goals omega
  have h2 := encBytes_length i.txHash (by omega)
  rw [h] at h2
  have h3 : uintSize 32 = 2 := by decide
  unfold marshalInput
  simp only [encArray, List.length_append, encHead_length, List.flatten_cons, List.flatten_nil, List.length_cons,
    List.length_nil, show (UInt64.ofNat (0 + 1 + 1)).toNat = 2 from rfl, show uintSize 2 = 1 by decide]
  omega

theorem inputs_bound (l : List TxInput) (h : ∀ i ∈ l, i.txHash.length = 32) : (encArray (l.map marshalInput)).length ≤ 9 + 38 * l.length := by
  have h1 : ((l.map marshalInput).flatten).length ≤ 38 * l.length := by
    induction l with
    | nil => simp
    | cons a l ih =>
      have := ih (fun i hi => h i (List.mem_cons_of_mem _ hi))
      have := input_bound a (h a List.mem_cons_self)
      simp only [List.map_cons, List.flatten_cons, List.length_append, List.length_cons]
      omega
  unfold encArray
  rw [List.length_append, encHead_length]
  have := (uintSize_le (UInt64.ofNat (l.map marshalInput).length).toNat).2
  omega

theorem output_bound (o : TxOutput) (b : Bytes) (h : marshalOutput o = .ok b) (ha : OutputAddress (Addr.bytes o.address)) : b.length ≤ 71 := by
  obtain ⟨ab, h1, h2⟩ := output_length o.address o.amount b h
  obtain ⟨ab', h3, h4⟩ := outputAddress_written o.address ha
  rw [h1] at h3
  obtain rfl := Res.ok.inj h3
  have := uintSize_le o.amount.toNat
  obtain ⟨y, rest, e, hc⟩ := ha
  rw [e, List.length_cons] at h4
  omega

theorem outs_bound (l : List TxOutput) : ∀ outs, collect (l.map marshalOutput) = .ok outs → (∀ o ∈ l, OutputAddress (Addr.bytes o.address)) →
    outs.flatten.length ≤ 71 * l.length ∧ outs.length = l.length := by
  induction l with
  | nil =>
    intro outs h _
    obtain rfl := Res.ok.inj h
    exact ⟨by simp, rfl⟩
  | cons a l ih =>
    intro outs h ha
    simp only [List.map_cons, collect] at h
    obtain ⟨b, hb, h⟩ := bind_ok h
    obtain ⟨bs', hbs, h⟩ := bind_ok h
    injection h with h
    obtain ⟨i1, i2⟩ := ih bs' hbs (fun o ho => ha o (List.mem_cons_of_mem _ ho))
    have := output_bound a b hb (ha a List.mem_cons_self)
    subst h
    simp only [List.flatten_cons, List.length_append, List.length_cons]
    omega

/-- **C136, the size.** Whatever the amounts, fee and time to live. -/
theorem C136_size (C : Crypto) (hH : ∀ m, (C.blake256 m).length = 32) (t : Tx) (k n : Nat) (bs : Bytes) (hb : Transaction.bytes C t k = .ok bs)
    (hi : ∀ i ∈ t.body.inputs, i.txHash.length = 32) (ho : ∀ o ∈ t.body.outputs, OutputAddress (Addr.bytes o.address))
    (hw : ∀ w ∈ t.witness, w.vkey.length = 32 ∧ w.signature.length = 64) (hwl : t.witness.length < 2 ^ 63)
    (hs : Steady t.metadata n) (ha : t.body.auxHash = [] ∨ t.body.auxHash.length = 32) :
    bs.length ≤ atMost t.body.inputs.length t.body.outputs.length t.witness.length n := by
  obtain ⟨outs, hou⟩ := bytes_outs C t k bs hb
  obtain ⟨bs0, q1, q2⟩ := bytes_size C hH t k n outs hs hou ha
  rw [hb] at q1
  obtain rfl := Res.ok.inj q1
  have h1 := inputs_bound _ hi
  obtain ⟨h2, -⟩ := outs_bound _ _ hou ho
  have h3 := witness_length t.witness hw hwl
  have h4 := (uintSize_le t.body.fee.toNat).2
  have h5 := (uintSize_le t.witness.length).2
  have h6 : (encArray outs).length ≤ 9 + outs.flatten.length := by
    unfold encArray
    rw [List.length_append, encHead_length]
    have := (uintSize_le (UInt64.ofNat outs.length).toNat).2
    omega
  have h7 : uintSize t.body.ttl.toNat ≤ 5 := by
    have := t.body.ttl.toNat_lt
    unfold uintSize
    repeat' split
    all_goals omega
  rw [q2]
  unfold restSize atMost
  rw [h3]
  repeat' split
  all_goals omega

theorem innerAddr_output : OutputAddress (Addr.bytes innerAddr) := by decide +kernel

theorem steady_of (md : Option Metadata) (m : Bytes) (hm : ∀ k, marshalMetadata md k = .ok m) : Steady md m.length := fun k => ⟨m, hm k, rfl⟩

/-- What `MinFee` returns is the linear fee of some transaction of that size. -/
theorem minFee_bound (C : Crypto) (hH : ∀ m, (C.blake256 m).length = 32) (b : Builder) (m : Bytes) (hm : ∀ k, marshalMetadata b.metadata k = .ok m)
    (hi : ∀ i ∈ b.body.inputs, i.txHash.length = 32) (ho : ∀ o ∈ b.body.outputs, OutputAddress (Addr.bytes o.address)) (n : Nat) (hn : n < 2 ^ 63) (hw : StdWit (feeWits b)) (hwl : (feeWits b).length ≤ n) :
    ∃ len, len ≤ atMost b.body.inputs.length (b.body.outputs.length + 1) n m.length ∧
      (MinFee C b).1 = b.protocol.txFeeFixed + b.protocol.txFeePerByte * UInt64.ofNat len := by
  have e1 : (MinFee C b).1 = feePasses C ⟨b.protocol.txFeePerByte, b.protocol.txFeeFixed⟩ (feeTx C b b.clock) (b.clock + 1) := rfl
  rw [e1, feeTx_of C b m b.clock (hm _)]
  have hfo : ∀ o ∈ feeOuts b, OutputAddress (Addr.bytes o.address) := by
    intro o h
    unfold feeOuts at h
    have hin := innerAddr_output
    generalize innerAddr = x at h hin
    split at h
    · rcases List.mem_append.1 h with h | h
      · exact ho o h
      · rw [List.mem_singleton.1 h]; exact hin
    · exact ho o h
  have hfl : (feeOuts b).length ≤ b.body.outputs.length + 1 := by
    unfold feeOuts
    split
    · rw [List.length_append, List.length_singleton]
    · exact Nat.le_succ _
  generalize feeWits b = fw at *
  obtain ⟨outs, hou⟩ := collect_total (feeOuts b) (fun o h => by
    obtain ⟨ab, hab, -⟩ := outputAddress_written _ (hfo o h)
    exact ⟨ab, hab⟩)
  unfold feePasses
  dsimp only
  generalize orZero (fee C _ _ (b.clock + 1)) = fee1
  rw [afterAux_of C _ m (b.clock + 1) (hm _)]
  dsimp only
  obtain ⟨a1, -, -⟩ := auxOf_size C hH b.metadata (auxOf C b.metadata (auxOf C b.metadata [] m) m) m (by
    obtain ⟨a0, -, -⟩ := auxOf_size C hH b.metadata [] m (.inl rfl)
    exact (auxOf_size C hH b.metadata _ m a0).1)
  obtain ⟨bs, g1, g2⟩ := tx_size ⟨⟨b.body.inputs, feeOuts b, fee1, b.body.ttl, auxOf C b.metadata (auxOf C b.metadata (auxOf C b.metadata [] m) m) m⟩, fw, true, b.metadata⟩
    (b.clock + 1 + 2 + 1) outs m hou (hm _) a1
  have hfe := fee_of C ⟨b.protocol.txFeePerByte, b.protocol.txFeeFixed⟩
    ⟨⟨b.body.inputs, feeOuts b, fee1, b.body.ttl, auxOf C b.metadata (auxOf C b.metadata [] m) m⟩, fw, true, b.metadata⟩ m bs (b.clock + 1 + 2) (hm _) g1
  rw [hfe]
  refine ⟨bs.length, ?_, rfl⟩
  have h := C136_size C hH ⟨⟨b.body.inputs, feeOuts b, fee1, b.body.ttl, auxOf C b.metadata (auxOf C b.metadata [] m) m⟩, fw, true, b.metadata⟩
    (b.clock + 1 + 2) m.length bs (by
      unfold Transaction.bytes
      rw [calcAux_of C _ m _ (hm _), Res.ok_bind]
      exact g1) hi hfo hw (by show fw.length < _; omega) (steady_of _ m hm) (by
      obtain ⟨a0, -, -⟩ := auxOf_size C hH b.metadata [] m (.inl rfl)
      exact (auxOf_size C hH b.metadata _ m a0).1)
  refine Nat.le_trans h ?_
  unfold atMost
  show 85 + 38 * b.body.inputs.length + 71 * (feeOuts b).length + 101 * fw.length + m.length ≤ _
  omega

/-- **C136.** A user with one key who has unspent outputs of that key for what is to be paid, a change that the ledger allows and the linear fee of `atMost` bytes makes the
payment: the builder succeeds and the ledger accepts, with a fee that is not higher. Besides the sum nothing is asked about fee, bytes or change but that what remains of the
inputs after the outputs is not within 200000 above `2 ^ 32` (C77 shows why) and not below 265536. -/
theorem C136_enough (H : Hashes) (hH : H.Ok) (blake224 blake256 : Bytes → Bytes) (h256 : ∀ m, (blake256 m).length = 32)
    (s : Session) (key pk : Bytes) (u : UTxO) (network slot : Nat) (m : Bytes)
    (hkeys : s.keys = [key]) (hk : key.length = 96 ∧ leNat (key.take 32) < 2 ^ 255) (hpk : (packageCrypto H blake256).publicKey key = .ok pk)
    (hu : Agrees blake224 u [pk] s.inputs) (hne : s.inputs ≠ []) (hdis : (s.inputs.map refOf).Nodup)
    (hout : ∀ o ∈ s.outputs, Receives network (Addr.bytes o.address) ∧ s.protocol.minUTXOValue.toNat ≤ o.amount.toNat)
    (hch : Receives network (Addr.bytes s.change)) (hcs : (Addr.bytes s.change).length ≤ 57)
    (hmd : GoodMetadata s.metadata) (hm : ∀ k, marshalMetadata s.metadata k = .ok m) (httl : s.ttl ≠ 0 → slot < s.ttl.toNat)
    (hfix : 65536 ≤ s.protocol.txFeeFixed.toNat ∧ s.protocol.txFeeFixed.toNat < 2 ^ 31) (hper : s.protocol.txFeePerByte.toNat < 2 ^ 16)
    (hmax : s.protocol.maxTxSize.toNat ≤ 16384) (hmin : 0 < s.protocol.minUTXOValue.toNat) (hI : sumIn s.inputs < 2 ^ 64)
    (hN : atMost s.inputs.length (s.outputs.length + 1) 1 m.length ≤ s.protocol.maxTxSize.toNat)
    (hcover : sumOut s.outputs + (s.protocol.txFeeFixed.toNat + s.protocol.txFeePerByte.toNat * atMost s.inputs.length (s.outputs.length + 1) 1 m.length) +
      s.protocol.minUTXOValue.toNat ≤ sumIn s.inputs)
    (hlow : sumOut s.outputs + 265536 ≤ sumIn s.inputs)
    (hwidth : sumIn s.inputs < sumOut s.outputs + 2 ^ 32 ∨ sumOut s.outputs + 2 ^ 32 + 200000 ≤ sumIn s.inputs) :
    ∃ fee bs v, s.Yields (packageCrypto H blake256) fee bs ∧ read bs = some v ∧
      Ledger.Accepts (ledgerCrypto H blake224 blake256) (envOf s.protocol network slot) u v ∧
      v.inputs = s.inputs.map refOf ∧ v.outputs = s.outputs.map outOf ++ [(Addr.bytes s.change, sumIn s.inputs - sumOut s.outputs - fee)] ∧
      fee ≤ s.protocol.txFeeFixed.toNat + s.protocol.txFeePerByte.toNat * atMost s.inputs.length (s.outputs.length + 1) 1 m.length ∧
      bs.length ≤ atMost s.inputs.length (s.outputs.length + 1) 1 m.length := by
  have eI : s.builder.body.inputs = s.inputs := by simp [Session.builder, setMetadata, SetTTL, AddOutputs, AddInputs, NewTxBuilder]
  have eO : s.builder.body.outputs = s.outputs := by simp [Session.builder, setMetadata, SetTTL, AddOutputs, AddInputs, NewTxBuilder]
  have eK : s.builder.xprvs ++ [] = [key] := by rw [List.append_nil]; exact hkeys
  generalize hNN : atMost s.inputs.length (s.outputs.length + 1) 1 m.length = N at *
  have hn : s.inputs.length < 2 ^ 20 ∧ s.outputs.length < 2 ^ 20 := by
    unfold atMost at hNN
    omega
  obtain ⟨fee, bs, hy⟩ := C77_succeeds H hH blake256 s hmd (fun o ho => by
      obtain ⟨ab, h, -⟩ := outputAddress_written _ (hout o ho).1.1
      exact ⟨ab, h⟩) (by
      obtain ⟨ab, h, -⟩ := outputAddress_written _ hch.1
      exact ⟨ab, h⟩) (by
      intro k h
      rw [hkeys] at h
      rw [List.mem_singleton.1 h]; exact hk)
  obtain ⟨t, hb, hf⟩ := hy
  obtain ⟨hbody, hval, body, h1, h2, h3⟩ := built_parts (packageCrypto H blake256) s.builder s.change [] t bs m hb hm
  rw [eK] at h3
  obtain ⟨wl, ws⟩ := witnessesOf_lengths _ (package_key_length H blake256) (package_sig_length H hH blake256) _ _ _ h3
  -- the size
  have hsz : bs.length ≤ N := by
    obtain ⟨h, b', k, e, ev, eb⟩ := hb.run
    have hx := C136_size (packageCrypto H blake256) h256 t k m.length bs eb
      (by rw [hbody]; show ∀ i ∈ s.builder.body.inputs, _; rw [eI]; exact hu.ids)
      (by
        rw [hbody]
        intro o ho
        have ho : o ∈ s.builder.body.outputs ++ _ := ho
        rw [eO] at ho
        rcases List.mem_append.1 ho with ho | ho
        · exact (hout o ho).1.1
        · rw [List.mem_singleton.1 ho]; exact hch.1)
      ws (by rw [wl]; exact (by decide : 1 < 2 ^ 63)) (by
        have : t.metadata = s.metadata := by
          obtain ⟨_, _, _, -, -, -, g4, g5⟩ := build_ok (packageCrypto H blake256) _ b' h e
          rw [← ev, view_build _ b' h _ _ g4 g5, foldl_sign]
          rfl
        rw [this]
        exact steady_of _ m hm)
      (by
        rw [hbody]
        exact (auxOf_size (packageCrypto H blake256) h256 s.metadata [] m (.inl rfl)).1)
    rw [hbody, wl] at hx
    have hx : bs.length ≤ atMost s.builder.body.inputs.length (s.builder.body.outputs ++ [_]).length 1 m.length := hx
    rw [eI, eO, List.length_append, List.length_singleton, hNN] at hx
    exact hx
  -- the fee
  have hfee : fee ≤ s.protocol.txFeeFixed.toNat + s.protocol.txFeePerByte.toNat * N := by
    obtain ⟨len, l1, l2⟩ := minFee_bound (packageCrypto H blake256) h256 s.builder m hm (by rw [eI]; exact hu.ids) (by rw [eO]; exact fun o ho => (hout o ho).1.1) 1 (by decide)
      (by intro w h; rw [show feeWits s.builder = [dummyWitness] from rfl, List.mem_singleton] at h; rw [h]; decide) (by decide : 1 ≤ 1)
    rw [eI, eO, hNN] at l1
    have e : t.body.fee = (MinFee (packageCrypto H blake256) s.builder).1 := by rw [hbody]
    have hlen : s.protocol.txFeePerByte.toNat * len ≤ s.protocol.txFeePerByte.toNat * N := Nat.mul_le_mul_left _ l1
    have hlim : s.protocol.txFeePerByte.toNat * N ≤ 2 ^ 16 * 16384 := Nat.mul_le_mul (by omega) (by omega)
    rw [← hf, e, l2, show s.builder.protocol = s.protocol from rfl, UInt64.toNat_add, UInt64.toNat_mul, ofNat64 _ (by omega)]
    rw [Nat.mod_eq_of_lt (a := s.protocol.txFeePerByte.toNat * len) (by omega), Nat.mod_eq_of_lt (by omega)]
    omega
  have hw : uintSize (sumIn s.inputs - sumOut s.outputs - fee) ≤ uintSize (sumIn s.inputs - sumOut s.outputs - 200000) := by
    rcases hwidth with h | h
    · have e1 : uintSize (sumIn s.inputs - sumOut s.outputs - 200000) = 5 := by
        unfold uintSize
        repeat' split
        all_goals omega
      rw [e1]
      unfold uintSize
      repeat' split
      all_goals omega
    · have e1 : uintSize (sumIn s.inputs - sumOut s.outputs - 200000) = 9 := by
        unfold uintSize
        repeat' split
        all_goals omega
      rw [e1]
      exact (uintSize_le _).2
  obtain ⟨v, k1, k2, k3, k4, -⟩ := C77_ledger_accepts_partial H hH blake224 blake256 h256 s key pk u network slot fee bs hkeys hk hpk hu hne hdis (by omega) hout
    (by omega) hch hmd httl ⟨t, hb, hf⟩ ⟨hfix, hper, hmax, .inr hw, hcs, hmin⟩ hI (by omega) (by omega)
  exact ⟨fee, bs, v, ⟨t, hb, hf⟩, k1, k2, k3, k4, hfee, hsz⟩

/-- **C136, by hand.** The same for payments made by hand from any number of keys (C100, C134), without the conditions on the change. -/
theorem C136_by_hand (H : Hashes) (hH : H.Ok) (blake224 blake256 : Bytes → Bytes) (h256 : ∀ m, (blake256 m).length = 32)
    (p : ByHand.Payment) (pks : List Bytes) (u : UTxO) (e : Env) (m : Bytes)
    (hk : ∀ k ∈ p.keys, FitKey k) (hpk : ∀ pk ∈ pks, ∃ key ∈ p.keys, (packageCrypto H blake256).publicKey key = .ok pk)
    (hu : Agrees blake224 u pks p.inputs) (hne : p.inputs ≠ []) (hdis : (p.inputs.map refOf).Nodup)
    (hout : ∀ o ∈ p.outputs, Receives e.network (Addr.bytes o.address) ∧ e.minUTxOValue ≤ o.amount.toNat)
    (hch : Receives e.network (Addr.bytes p.change)) (hmd : GoodMetadata p.metadata) (hm : ∀ k, marshalMetadata p.metadata k = .ok m)
    (httl : p.ttl ≠ 0 → e.slot < p.ttl.toNat) (he : e.minFeeA = p.fees.txFeePerByte.toNat ∧ e.minFeeB = p.fees.txFeeFixed.toNat)
    (hI : sumIn p.inputs < 2 ^ 64)
    (hN : atMost p.inputs.length (p.outputs.length + 1) p.keys.length m.length + 8 ≤ e.maxTxSize) (hmax : e.maxTxSize < 2 ^ 61)
    (hov : p.fees.txFeeFixed.toNat + p.fees.txFeePerByte.toNat * e.maxTxSize < 2 ^ 64)
    (hcover : sumOut p.outputs + (p.fees.txFeeFixed.toNat + p.fees.txFeePerByte.toNat * atMost p.inputs.length (p.outputs.length + 1) p.keys.length m.length) + e.minUTxOValue ≤
      sumIn p.inputs) :
    ∃ fee bs v, pay (packageCrypto H blake256) p = .ok bs ∧ read bs = some v ∧ Ledger.Accepts (ledgerCrypto H blake224 blake256) e u v ∧
      v.inputs = p.inputs.map refOf ∧ v.outputs = p.outputs.map outOf ++ [(Addr.bytes p.change, sumIn p.inputs - sumOut p.outputs - fee)] ∧ v.fee = fee ∧
      fee ≤ p.fees.txFeeFixed.toNat + p.fees.txFeePerByte.toNat * atMost p.inputs.length (p.outputs.length + 1) p.keys.length m.length := by
  have dI : p.draft.body.inputs = p.inputs := by
    simp only [ByHand.Payment.draft, ByHand.setWitness, ByHand.setMetadata, ByHand.setTTL, ByHand.AddOutputs, ByHand.AddInputs, ByHand.NewTx, List.nil_append, List.take_append_drop]
  have dO : p.draft.body.outputs = p.outputs ++ [⟨p.change, totalIn p.inputs - totalOut p.outputs⟩] := by
    simp only [ByHand.Payment.draft, ByHand.setWitness, ByHand.setMetadata, ByHand.setTTL, ByHand.AddOutputs, ByHand.AddInputs, ByHand.NewTx, List.nil_append]
  have dM : p.draft.metadata = p.metadata := rfl
  have dA : p.draft.body.auxHash = [] := rfl
  have dW : p.draft.witness = p.keys.map fun _ => ByHand.NewVKeyWitness (List.replicate 32 0) (List.replicate 64 0) := by
    show ByHand.NewTXWitness _ = _
    unfold ByHand.NewTXWitness
    split
    · rename_i h; exact (List.length_eq_zero_iff.1 h).symm
    · rfl
  have hrec : ∀ o ∈ p.draft.body.outputs, OutputAddress (Addr.bytes o.address) := by
    rw [dO]
    intro o ho
    rcases List.mem_append.1 ho with ho | ho
    · exact (hout o ho).1.1
    · rw [List.mem_singleton.1 ho]; exact hch.1
  have hst : ∀ w ∈ p.draft.witness, w.vkey.length = 32 ∧ w.signature.length = 64 := by
    rw [dW]
    intro w h
    obtain ⟨_, -, rfl⟩ := List.mem_map.1 h
    decide
  generalize hNN : atMost p.inputs.length (p.outputs.length + 1) p.keys.length m.length = N at *
  have hn : p.inputs.length < 2 ^ 61 ∧ p.outputs.length < 2 ^ 61 ∧ p.keys.length < 2 ^ 61 := by
    unfold atMost at hNN
    omega
  have hwl : p.draft.witness.length = p.keys.length := by rw [dW, List.length_map]
  obtain ⟨outs, hou⟩ := collect_total p.draft.body.outputs (fun o h => by
    obtain ⟨ab, hab, -⟩ := outputAddress_written _ (hrec o h)
    exact ⟨ab, hab⟩)
  obtain ⟨ds, hds, hdl⟩ := bytes_size (packageCrypto H blake256) h256 p.draft 0 m.length outs (by rw [dM]; exact steady_of _ m hm) hou (.inl dA)
  have hsz := C136_size (packageCrypto H blake256) h256 p.draft 0 m.length ds hds (by rw [dI]; exact hu.ids) hrec hst (by rw [hwl]; omega) (by rw [dM]; exact steady_of _ m hm) (.inl dA)
  rw [dI, dO, hwl, List.length_append, List.length_singleton, hNN] at hsz
  have hmul := Nat.mul_le_mul_left p.fees.txFeePerByte.toNat (show ds.length + 8 ≤ e.maxTxSize by omega)
  obtain ⟨d, kd, hd, f1, f2, f3, f4, -, f6, f7⟩ := C98_five_passes (packageCrypto H blake256) h256 p.fees p.draft 0 m.length ds (by rw [dM]; exact steady_of _ m hm) (.inl dA) hds
    (by omega) (by omega)
  -- the fee is that of the draft with its fee
  have hfee : d.body.fee.toNat ≤ p.fees.txFeeFixed.toNat + p.fees.txFeePerByte.toNat * N := by
    have ha : d.body.auxHash = [] ∨ d.body.auxHash.length = 32 := by
      have hd0 : uintSize p.draft.body.fee.toNat = 1 := by
        have : p.draft.body.fee = 0 := rfl
        rw [this]; decide
      have hR := Nat.mul_le_mul_left p.fees.txFeePerByte.toNat (show restSize p.draft m.length outs + 9 ≤ ds.length + 8 by omega)
      obtain ⟨f, aux, e1, -, e3, -⟩ := feeLoop_ok (packageCrypto H blake256) h256 p.fees m.length outs _ (restSize p.draft m.length outs) (fun _ => rfl) (by omega) (by omega) 5
        p.draft 0 (by rw [dM]; exact steady_of _ m hm) hou (.inl dA) rfl
      rw [hd] at e1
      have e1 := Res.ok.inj e1
      injection e1 with e1 _
      rw [e1]
      exact e3
    obtain ⟨bs', g1, -⟩ := bytes_size (packageCrypto H blake256) h256 d 0 m.length outs (by rw [f6, dM]; exact steady_of _ m hm) (by rw [f2]; exact hou) ha
    have g2 := C136_size (packageCrypto H blake256) h256 d 0 m.length bs' g1 (by rw [f1, dI]; exact hu.ids) (by rw [f2]; exact hrec) (by rw [f4]; exact hst) (by rw [f4, hwl]; omega)
      (by rw [f6, dM]; exact steady_of _ m hm) ha
    rw [f1, f2, f4, dI, dO, hwl, List.length_append, List.length_singleton, hNN] at g2
    rw [f7 0 bs' g1]
    have := Nat.mul_le_mul_left p.fees.txFeePerByte.toNat g2
    omega
  obtain ⟨bs, v, q1, q2, q3, v1, v2, v3, -⟩ := C100_pay_accepted H hH blake224 blake256 h256 p pks u e ds d kd hk (by omega) hpk hu hne hdis (by omega) hout (by omega) hch hmd httl he
    hds (by omega) hmax hov hd hI (by omega)
  exact ⟨_, bs, v, q1, q2, q3, v1, v2, v3, hfee⟩

/-- C136: 10 ada in one output, 5 to be paid, with the parameters of the main network. -/
example (H : Hashes) (hH : H.Ok) (blake224 blake256 : Bytes → Bytes) (h256 : ∀ m, (blake256 m).length = 32) :
    ∃ pk fee bs, (sampleSession [sampleKey] 10000000 5000000 sampleAddr).Yields (packageCrypto H blake256) fee bs ∧
      Ledger.Valid (ledgerCrypto H blake224 blake256) ⟨44, 155381, 16384, 1000000, 1, 0⟩ (sampleUTxO blake224 pk 10000000) bs ∧ fee ≤ 171529 := by
  obtain ⟨_, pk, -, s2, -⟩ := C37_signature_valid H hH sampleKey sampleKey_ok.1 sampleKey_ok.2 []
  have p1 := packageCrypto_publicKey H blake256 sampleKey sampleKey_ok.1 sampleKey_ok.2
  rw [s2] at p1
  obtain ⟨fee, bs, v, h1, h2, h3, -, -, h4, -⟩ := C136_enough H hH blake224 blake256 h256 (sampleSession [sampleKey] 10000000 5000000 sampleAddr) sampleKey pk
    (sampleUTxO blake224 pk 10000000) 1 0 [0xf6] rfl sampleKey_ok p1
    ⟨by intro i hi; rw [List.mem_singleton.1 hi]; decide, by
      intro i hi
      rw [List.mem_singleton.1 hi]
      exact ⟨_, if_pos rfl, pk, List.mem_singleton.2 rfl, 0x61, [], by rw [List.append_nil], by decide⟩⟩
    (by decide) (by decide)
    (by intro o ho; rw [List.mem_singleton.1 ho]; exact ⟨⟨by decide +kernel, _, _, rfl, by decide +kernel⟩, by decide +kernel⟩)
    ⟨by decide +kernel, _, _, rfl, by decide +kernel⟩ (by decide +kernel) (.inl rfl) (fun _ => rfl) (fun h => absurd rfl h) (by decide) (by decide) (by decide) (by decide) (by decide)
    (by decide) (by decide) (by decide) (by decide)
  exact ⟨pk, fee, bs, h1, ⟨v, h2, h3⟩, h4⟩

/-- C136, by hand: 10 and 5 ada of two keys, 12 to be paid. -/
example (H : Hashes) (hH : H.Ok) (blake256 : Bytes → Bytes) (h256 : ∀ m, (blake256 m).length = 32) :
    ∃ pk1 pk2 bs, pay (packageCrypto H blake256) (samplePayment [sampleKey, List.replicate 96 2]) = .ok bs ∧
      Ledger.Valid (ledgerCrypto H toGolden blake256) ⟨44, 155381, 16384, 1000000, 1, 0⟩ (twoUTxO pk1 pk2) bs := by
  obtain ⟨pk1, pk2, ho, hp⟩ := many_sample H hH blake256
  obtain ⟨-, -, q1, a1, g1, u1, o1⟩ := ho.each _ (List.mem_cons_self (l := _))
  obtain ⟨-, -, q2, a2, g2, u2, o2⟩ := ho.each _ (List.mem_cons_of_mem _ (List.mem_singleton.2 rfl))
  obtain ⟨fee, bs, v, h1, h2, h3, -⟩ := C136_by_hand H hH toGolden blake256 h256 (samplePayment [sampleKey, List.replicate 96 2]) [q1, q2] (twoUTxO pk1 pk2)
    ⟨44, 155381, 16384, 1000000, 1, 0⟩ [0xf6] hp.keys
    (by intro pk h
        rcases List.mem_cons.1 h with rfl | h
        · exact ⟨_, hp.signs _ (List.mem_cons_self (l := _)), g1⟩
        · rw [List.mem_singleton.1 h]; exact ⟨_, hp.signs _ (List.mem_cons_of_mem _ (List.mem_singleton.2 rfl)), g2⟩)
    ⟨by decide, by
      intro i hi
      rcases List.mem_cons.1 hi with rfl | hi
      · exact ⟨a1, u1, q1, List.mem_cons_self, o1⟩
      · rw [List.mem_singleton.1 hi]; exact ⟨a2, u2, q2, List.mem_cons_of_mem _ (List.mem_singleton.2 rfl), o2⟩⟩
    (by decide) (by decide) hp.outputs hp.change hp.metadata (fun _ => rfl) hp.ttl hp.fees (by decide) (by decide : 85 + 38 * 2 + 71 * 2 + 101 * 2 + 1 + 8 ≤ 16384) (by decide) (by decide)
    (by decide : 12000000 + (155381 + 44 * (85 + 38 * 2 + 71 * 2 + 101 * 2 + 1)) + 1000000 ≤ 15000000)
  exact ⟨pk1, pk2, bs, h1, v, h2, h3⟩

end Cardano.Props
