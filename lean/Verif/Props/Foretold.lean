import Verif.Props.Reorder
import Verif.Props.Enough
/-!
# Property C141: size and fee can be computed beforehand
-/
set_option autoImplicit false

namespace Cardano.Props
open Cbor TxSpec Transaction TxBuilder Addr Bip32 Spec
open Ledger (read refOf outOf witOf Env UTxO OutputAddress)

/-- Size of an input: an array of two, an id of 32 bytes, a number. -/
def inputSize (i : TxInput) : Nat := 35 + uintSize i.index.toNat

/-- Size of an output: an array of two, an address of `o.1` bytes (24 to 255), and the amount `o.2`. -/
def outputSize (o : Nat × Nat) : Nat := 3 + o.1 + uintSize o.2

/-- Bytes of the metadata and of the entry for its hash (key 7, and a byte string of 32); null without metadata. -/
def metadataPart (md : Option Nat) : Nat := match md with | none => 1 | some n => 35 + n

/-- Size of a transaction in Shelley format: an array of four, a map with the entries 0, 1 and 2, and 3 and 7 if present, the witnesses, the flag, and the metadata. -/
def exactSize (inputs : List TxInput) (outputs : List (Nat × Nat)) (fee ttl keys : Nat) (metadata : Option Nat) : Nat :=
  6 + (uintSize inputs.length + (inputs.map inputSize).sum) + (uintSize outputs.length + (outputs.map outputSize).sum) + uintSize fee +
    (if ttl = 0 then 0 else 1 + uintSize ttl) + (if keys = 0 then 1 else 2 + uintSize keys + 101 * keys) +
    metadataPart metadata

/-- The metadata is written in so many bytes, whenever it is written. -/
def MetadataSize (d : Option Metadata) : Option Nat → Prop
  | none => d = none
  | some n => ∃ x, d = some x ∧ ∀ k, ∃ m, x.enc k = .ok m ∧ m.length = n

/-- Address and amount as far as sizes go. -/
def outSizes (l : List TxOutput) : List (Nat × Nat) := l.map fun o => ((Addr.bytes o.address).length, o.amount.toNat)

theorem written_input (i : TxInput) (h : i.txHash.length = 32) : (marshalInput i).length = inputSize i := by
  have h1 : (encUint (UInt64.ofNat i.index.toNat)).length = uintSize i.index.toNat := by
    rw [encUint_length, ofNat64 _ (by have := i.index.toNat_lt; omega)]
  have h2 := encBytes_length i.txHash (by omega)
  rw [h] at h2
  have h3 : uintSize 32 = 2 := by decide
  unfold marshalInput inputSize
  simp only [encArray, List.length_append, encHead_length, List.flatten_cons, List.flatten_nil, List.length_cons,
    List.length_nil, show (UInt64.ofNat (0 + 1 + 1)).toNat = 2 from rfl, show uintSize 2 = 1 by decide]
  omega

theorem written_inputs (l : List TxInput) (hl : l.length < 2 ^ 64) (h : ∀ i ∈ l, i.txHash.length = 32) :
    (encArray (l.map marshalInput)).length = uintSize l.length + (l.map inputSize).sum := by
  have h1 : ((l.map marshalInput).flatten).length = (l.map inputSize).sum := by
    clear hl
    induction l with
    | nil => rfl
    | cons a l ih =>
      have := ih (fun i hi => h i (List.mem_cons_of_mem _ hi))
      have := written_input a (h a List.mem_cons_self)
      simp only [List.map_cons, List.flatten_cons, List.length_append, List.sum_cons]
      omega
  unfold encArray
  rw [List.length_append, encHead_length, List.length_map, ofNat64 _ hl, h1]

theorem written_outputs (l : List TxOutput) : ∀ outs, collect (l.map marshalOutput) = .ok outs → (∀ o ∈ l, OutputAddress (Addr.bytes o.address)) →
    outs.flatten.length = ((outSizes l).map outputSize).sum ∧ outs.length = l.length := by
  induction l with
  | nil =>
    intro outs h _
    obtain rfl := Res.ok.inj h
    exact ⟨rfl, rfl⟩
  | cons a l ih =>
    intro outs h ha
    simp only [List.map_cons, collect] at h
    obtain ⟨b, hb, h⟩ := bind_ok h
    obtain ⟨bs', hbs, h⟩ := bind_ok h
    injection h with h
    obtain ⟨i1, i2⟩ := ih bs' hbs (fun o ho => ha o (List.mem_cons_of_mem _ ho))
    obtain ⟨ab, h1, h2⟩ := output_length a.address a.amount b hb
    obtain ⟨ab', h3, h4⟩ := outputAddress_written a.address (ha a List.mem_cons_self)
    rw [h1] at h3
    obtain rfl := Res.ok.inj h3
    subst h
    simp only [List.flatten_cons, List.length_append, List.length_cons, outSizes, List.map_cons, List.sum_cons, outputSize] at i1 ⊢
    omega

theorem written_output_array (l : List TxOutput) (hl : l.length < 2 ^ 64) (outs : List Bytes) (h : collect (l.map marshalOutput) = .ok outs)
    (ha : ∀ o ∈ l, OutputAddress (Addr.bytes o.address)) :
    (encArray outs).length = uintSize (outSizes l).length + ((outSizes l).map outputSize).sum := by
  obtain ⟨h1, h2⟩ := written_outputs l outs h ha
  unfold encArray
  rw [List.length_append, encHead_length, h2, ofNat64 _ hl, h1]
  simp only [outSizes, List.length_map]

theorem steady_size (d : Option Metadata) (md : Option Nat) (h : MetadataSize d md) :
    ∃ n, Steady d n ∧ auxSize d + n = metadataPart md := by
  cases md with
  | none =>
    have h : d = none := h
    subst h
    exact ⟨1, fun k => ⟨encNil, rfl, rfl⟩, rfl⟩
  | some n =>
    obtain ⟨x, rfl, h⟩ := h
    exact ⟨n, h, rfl⟩

theorem witness_part (ws : List VKeyWitness) (h : ∀ w ∈ ws, w.vkey.length = 32 ∧ w.signature.length = 64) (hl : ws.length < 2 ^ 63) :
    (marshalWitness ws).length = if ws.length = 0 then 1 else 2 + uintSize ws.length + 101 * ws.length := by
  have := witness_length ws h hl
  rw [this]

/-- **C141, the size.** Exactly so many bytes are returned by `Bytes`, for any transaction with ids of 32 bytes, addresses that outputs can have, and witnesses of full length. -/
theorem C141_size (C : Crypto) (hH : ∀ m, (C.blake256 m).length = 32) (t : Tx) (k : Nat) (md : Option Nat) (bs : Bytes) (hb : Transaction.bytes C t k = .ok bs)
    (hi : ∀ i ∈ t.body.inputs, i.txHash.length = 32) (hil : t.body.inputs.length < 2 ^ 63)
    (ho : ∀ o ∈ t.body.outputs, OutputAddress (Addr.bytes o.address)) (hol : t.body.outputs.length < 2 ^ 63)
    (hw : ∀ w ∈ t.witness, w.vkey.length = 32 ∧ w.signature.length = 64) (hwl : t.witness.length < 2 ^ 63)
    (hs : MetadataSize t.metadata md) (ha : t.body.auxHash = [] ∨ t.metadata ≠ none ∧ t.body.auxHash.length = 32) :
    bs.length = exactSize t.body.inputs (outSizes t.body.outputs) t.body.fee.toNat t.body.ttl.toNat t.witness.length md := by
  obtain ⟨n, hn, hp⟩ := steady_size _ _ hs
  obtain ⟨outs, hou⟩ := bytes_outs C t k bs hb
  obtain ⟨bs0, q1, q2⟩ := bytes_size C hH t k n outs hn hou (ha.imp id (·.2))
  rw [hb] at q1
  obtain rfl := Res.ok.inj q1
  rw [q2]
  unfold restSize exactSize
  rw [written_inputs _ (by omega) hi, written_output_array _ (by omega) outs hou ho, witness_length _ hw hwl, ← hp]
  have e1 : (if t.metadata.isNone = true ∧ t.body.auxHash = [] then 0 else 35) = auxSize t.metadata := by
    unfold auxSize
    cases hd : t.metadata with
    | none =>
      rcases ha with ha | ha
      · simp [ha]
      · exact absurd hd ha.1
    | some x => simp
  have e2 : (t.body.ttl = 0) = (t.body.ttl.toNat = 0) := propext ⟨fun h => by rw [h]; rfl, fun h => UInt32.toNat_inj.1 h⟩
  rw [e1]
  simp only [e2]
  omega

/-- What remains of the inputs for the change, with 200000 set aside for the fee. -/
def remaining (s : Session) : Nat := sumIn s.inputs - sumOut s.outputs - 200000

/-- The size that the builder reckons with: one witness, and change to a base address of what remains after 200000. -/
def reckoned (s : Session) (fee : Nat) (md : Option Nat) : Nat :=
  exactSize s.inputs (outSizes s.outputs ++ [(57, remaining s)]) fee s.ttl.toNat 1 md

theorem innerAddr_base : OutputAddress (Addr.bytes innerAddr) ∧ (Addr.bytes innerAddr).length = 57 := by decide +kernel

theorem outSizes_append (l l' : List TxOutput) : outSizes (l ++ l') = outSizes l ++ outSizes l' := List.map_append

/-- **C141, the fee.** Whatever the number of keys, the fee is the linear fee of the size reckoned with. -/
theorem C141_fee (H : Hashes) (_hH : H.Ok) (blake256 : Bytes → Bytes) (h256 : ∀ m, (blake256 m).length = 32)
    (s : Session) (fee : Nat) (bs : Bytes) (md : Option Nat) (hf : s.Fits) (hy : s.Yields (packageCrypto H blake256) fee bs)
    (hi : ∀ i ∈ s.inputs, i.txHash.length = 32) (ho : ∀ o ∈ s.outputs, OutputAddress (Addr.bytes o.address)) (hs : MetadataSize s.metadata md)
    (hfix : 65536 ≤ s.protocol.txFeeFixed.toNat ∧ s.protocol.txFeeFixed.toNat < 2 ^ 31) (hper : s.protocol.txFeePerByte.toNat < 2 ^ 16)
    (hI : sumIn s.inputs < 2 ^ 64) (hcover : sumOut s.outputs + 200000 ≤ sumIn s.inputs) (hmax : reckoned s 0 md ≤ 16384) :
    fee = s.protocol.txFeePerByte.toNat * reckoned s fee md + s.protocol.txFeeFixed.toNat ∧ uintSize fee = 5 := by
  obtain ⟨t, hb, rfl⟩ := hy
  obtain ⟨m, x, hm, -⟩ := goodMetadata_enc _ hf.metadata
  obtain ⟨hbody, -⟩ := built_parts (packageCrypto H blake256) s.builder s.change [] t bs m hb hm
  have hfee : t.body.fee = (MinFee (packageCrypto H blake256) s.builder).1 := by rw [hbody]
  rw [hfee]
  obtain ⟨n, hn, hp⟩ := steady_size _ _ hs
  have eI : s.builder.body.inputs = s.inputs := by simp [Session.builder, setMetadata, SetTTL, AddOutputs, AddInputs, NewTxBuilder]
  have eO : s.builder.body.outputs = s.outputs := by simp [Session.builder, setMetadata, SetTTL, AddOutputs, AddInputs, NewTxBuilder]
  have tI := totalIn_toNat s.inputs
  have tO := totalOut_toNat s.outputs
  rw [Nat.mod_eq_of_lt hI] at tI
  rw [Nat.mod_eq_of_lt (by omega)] at tO
  have hne : totalIn s.inputs ≠ totalOut s.outputs := by
    intro h
    rw [h] at tI
    omega
  have hle1 : totalOut s.outputs ≤ totalIn s.inputs := UInt64.le_iff_toNat_le.2 (by omega)
  have hph : (totalIn s.inputs - totalOut s.outputs - 200000).toNat = sumIn s.inputs - sumOut s.outputs - 200000 := by
    have a1 := UInt64.toNat_sub_of_le _ _ hle1
    rw [UInt64.toNat_sub_of_le _ _ (UInt64.le_iff_toNat_le.2 (by rw [a1, tI, tO]; show 200000 ≤ _; omega)), a1, tI, tO]
    rfl
  have hfo : feeOuts s.builder = s.outputs ++ [⟨innerAddr, totalIn s.inputs - totalOut s.outputs - 200000⟩] := by
    unfold feeOuts
    rw [eI, eO, if_pos hne]
  have hall : ∀ o ∈ feeOuts s.builder, OutputAddress (Addr.bytes o.address) := by
    rw [hfo]
    have := innerAddr_base.1
    generalize innerAddr = y at this ⊢
    intro o h
    rcases List.mem_append.1 h with h | h
    · exact ho o h
    · rw [List.mem_singleton.1 h]; exact this
  obtain ⟨outs, hou⟩ := collect_total (feeOuts s.builder) (fun o h => by
    obtain ⟨ab, hab, -⟩ := outputAddress_written _ (hall o h)
    exact ⟨ab, hab⟩)
  have hlen : (feeOuts s.builder).length < 2 ^ 64 := by
    rw [hfo, List.length_append, List.length_singleton]
    have := hf.outputs
    omega
  have hoa := written_output_array _ hlen outs hou hall
  have hsz : outSizes (feeOuts s.builder) = outSizes s.outputs ++ [(57, remaining s)] := by
    rw [hfo, outSizes_append]
    have e := innerAddr_base.2
    generalize innerAddr = y at e
    have e' : outSizes [⟨y, totalIn s.inputs - totalOut s.outputs - 200000⟩] = [((Addr.bytes y).length, (totalIn s.inputs - totalOut s.outputs - 200000).toNat)] := rfl
    rw [e', e, hph]
    rfl
  rw [hsz] at hoa
  obtain ⟨l1, l2, f1, a1, a2, base, a3, a4, a5⟩ := minFee_of (packageCrypto H blake256) h256 s.builder n outs hn hou
  rw [a2]
  have hwit : (marshalWitness (feeWits s.builder)).length = 104 := by
    show (marshalWitness [dummyWitness]).length = 104
    decide +kernel
  have eT : s.builder.body.ttl = s.ttl := rfl
  have eF : s.builder.body.fee = 0 := rfl
  have eP : s.builder.protocol = s.protocol := rfl
  have eM : s.builder.metadata = s.metadata := rfl
  rw [eI, eT, eM, hwit, hoa, written_inputs _ (by have := hf.inputs; omega) hi] at a3
  have e2 : (s.ttl = 0) = (s.ttl.toNat = 0) := propext ⟨fun h => by rw [h]; rfl, fun h => UInt32.toNat_inj.1 h⟩
  have hr : ∀ f, reckoned s f md = base + uintSize f := by
    intro f
    unfold reckoned exactSize
    rw [a3, ← hp]
    simp only [e2]
    have : uintSize 1 = 1 := by decide
    rw [if_neg (by decide : ¬ 1 = 0), this]
    omega
  have u0 : uintSize 0 = 1 := by decide
  have hb0 := hr 0
  rw [u0] at hb0
  rw [eP] at a1 a2 ⊢
  rw [eF, show (0 : UInt64).toNat = 0 from rfl, u0] at a4
  have lin : ∀ l, l ≤ 20000 → (s.protocol.txFeeFixed + s.protocol.txFeePerByte * UInt64.ofNat l).toNat = s.protocol.txFeePerByte.toNat * l + s.protocol.txFeeFixed.toNat ∧
      s.protocol.txFeePerByte.toNat * l ≤ 65535 * 20000 := by
    intro l hl
    have hm := Nat.mul_le_mul (show s.protocol.txFeePerByte.toNat ≤ 65535 by omega) hl
    refine ⟨?_, hm⟩
    rw [UInt64.toNat_add, UInt64.toNat_mul, ofNat64 l (by omega), Nat.mod_eq_of_lt (show s.protocol.txFeePerByte.toNat * l < 2 ^ 64 by omega), Nat.mod_eq_of_lt (by omega), Nat.add_comm]
  have wide : ∀ z, 65536 ≤ z → z < 2 ^ 32 → uintSize z = 5 := by
    intro z h1 h2
    unfold uintSize
    rw [if_neg (by omega), if_neg (by omega), if_neg (by omega), if_pos h2]
  obtain ⟨b1, b2⟩ := lin l1 (by omega)
  rw [← a1] at b1
  have w1 : uintSize f1.toNat = 5 := wide _ (by omega) (by omega)
  rw [w1] at a5
  obtain ⟨b3, b4⟩ := lin l2 (by omega)
  have w2 := wide (s.protocol.txFeePerByte.toNat * l2 + s.protocol.txFeeFixed.toNat) (by omega) (by omega)
  rw [b3, hr, w2, a5]
  exact ⟨rfl, rfl⟩

/-- **C141, the bytes of a session.** -/
theorem C141_session_size (H : Hashes) (hH : H.Ok) (blake256 : Bytes → Bytes) (h256 : ∀ m, (blake256 m).length = 32)
    (s : Session) (fee : Nat) (bs : Bytes) (md : Option Nat) (hf : s.Fits) (hy : s.Yields (packageCrypto H blake256) fee bs)
    (hi : ∀ i ∈ s.inputs, i.txHash.length = 32) (ho : ∀ o ∈ s.outputs, OutputAddress (Addr.bytes o.address)) (hch : OutputAddress (Addr.bytes s.change))
    (hs : MetadataSize s.metadata md) (hI : sumIn s.inputs < 2 ^ 64) (hcover : sumOut s.outputs + fee ≤ sumIn s.inputs) :
    bs.length = exactSize s.inputs (outSizes s.outputs ++ [((Addr.bytes s.change).length, sumIn s.inputs - sumOut s.outputs - fee)]) fee s.ttl.toNat s.keys.length md := by
  obtain ⟨m, x, hm, hx, -⟩ := goodMetadata_enc _ hf.metadata
  obtain ⟨f, ws, body, rfl, -, h1, h2, h3, -⟩ := session_parts H hH blake256 h256 s fee bs m x hf hy hm hx
  have hwl := witnessesOf_lengths _ (package_key_length H blake256) (package_sig_length H hH blake256) _ _ _ h3
  have hws := witness_length ws hwl.2 (by rw [hwl.1]; exact hf.keys)
  rw [hwl.1] at hws
  obtain ⟨n, hn, hp⟩ := steady_size _ _ hs
  obtain ⟨m', hm', hl'⟩ := hn 0
  rw [hm 0] at hm'
  obtain rfl := Res.ok.inj hm'
  obtain ⟨a1, a2⟩ := auxSize_of (packageCrypto H blake256) h256 s.metadata m
  obtain ⟨outs, o1, o2⟩ := body_length _ _ h1 a1
  dsimp only at o1 o2
  rw [a2] at o2
  have hall : ∀ o ∈ s.outputs ++ [⟨s.change, totalIn s.inputs - totalOut s.outputs - f⟩], OutputAddress (Addr.bytes o.address) := by
    intro o h
    rcases List.mem_append.1 h with h | h
    · exact ho o h
    · rw [List.mem_singleton.1 h]; exact hch
  have hc := change_toNat s.inputs s.outputs f.toNat hI hcover
  rw [UInt64.ofNat_toNat] at hc
  have hoa := written_output_array _ (by rw [List.length_append, List.length_singleton]; have := hf.outputs; omega) outs o1 hall
  have e' : outSizes [⟨s.change, totalIn s.inputs - totalOut s.outputs - f⟩] = [((Addr.bytes s.change).length, (totalIn s.inputs - totalOut s.outputs - f).toNat)] := rfl
  rw [outSizes_append, e', hc] at hoa
  have e2 : (s.ttl = 0) = (s.ttl.toNat = 0) := propext ⟨fun h => by rw [h]; rfl, fun h => UInt32.toNat_inj.1 h⟩
  have hbl : (encBool true).length = 1 := rfl
  rw [h2, List.length_cons, List.length_append, List.length_append, List.length_append, hbl, hws, o2, hoa, written_inputs _ (by have := hf.inputs; omega) hi]
  unfold exactSize
  rw [← hp]
  simp only [e2]
  omega

/-- The part of the size that has nothing to do with inputs and change. -/
def otherSize (outputs : List TxOutput) (ttl : UInt32) (fee : Nat) (md : Option Nat) : Nat :=
  6 + (uintSize (outputs.length + 1) + ((outSizes outputs).map outputSize).sum + 60) + uintSize fee + (if ttl.toNat = 0 then 0 else 1 + uintSize ttl.toNat) + 104 + metadataPart md

theorem outSizes_single (a r : Nat) : ([(a, r)].map outputSize).sum = 3 + a + uintSize r := Nat.add_zero _

theorem reckoned_parts (s : Session) (fee : Nat) (md : Option Nat) :
    reckoned s fee md = uintSize s.inputs.length + (s.inputs.map inputSize).sum + uintSize (remaining s) + otherSize s.outputs s.ttl fee md := by
  unfold reckoned
  generalize remaining s = r
  unfold exactSize otherSize
  have : uintSize 1 = 1 := by decide
  rw [if_neg (by decide : ¬ 1 = 0), this]
  rw [List.map_append, List.sum_append, List.length_append, List.length_singleton, outSizes_single, show (outSizes s.outputs).length = s.outputs.length from List.length_map _]
  omega

theorem parts_step (n n' x r r' o c : Nat) (h1 : n ≤ n') (h2 : r ≤ r') : n' + (x + (35 + c)) + r' + o = n + x + r + o + (35 + c + (n' - n) + (r' - r)) := by omega

theorem uintSize_step (n : Nat) (h : n < 65535) : uintSize n ≤ uintSize (n + 1) ∧ uintSize (n + 1) ≤ uintSize n + 1 := by
  unfold uintSize
  repeat' split
  all_goals omega

/-- **C141, the price of an input.** With an input added, wherever in the order, the fee rises by the price of 36 to 47 bytes: those of the input, one more if the number of inputs
becomes longer, and those by which the change becomes longer. What is spent in addition comes back as change but for this. -/
theorem C141_input_cost (H : Hashes) (hH : H.Ok) (blake256 : Bytes → Bytes) (h256 : ∀ m, (blake256 m).length = 32)
    (s s' : Session) (pre post : List TxInput) (i : TxInput) (fee fee' : Nat) (bs bs' : Bytes) (md : Option Nat)
    (hin : s.inputs = pre ++ post) (hs' : s' = { s with inputs := pre ++ i :: post })
    (hf : s.Fits) (hf' : s'.Fits) (hy : s.Yields (packageCrypto H blake256) fee bs) (hy' : s'.Yields (packageCrypto H blake256) fee' bs')
    (hi : ∀ j ∈ s'.inputs, j.txHash.length = 32) (ho : ∀ o ∈ s.outputs, OutputAddress (Addr.bytes o.address)) (hs : MetadataSize s.metadata md)
    (hfix : 65536 ≤ s.protocol.txFeeFixed.toNat ∧ s.protocol.txFeeFixed.toNat < 2 ^ 31) (hper : s.protocol.txFeePerByte.toNat < 2 ^ 16)
    (hI : sumIn s'.inputs < 2 ^ 64) (hcover : sumOut s.outputs + 200000 ≤ sumIn s.inputs) (hmax : reckoned s' 0 md ≤ 16384) :
    ∃ bytes, fee' = fee + s.protocol.txFeePerByte.toNat * bytes ∧ 36 ≤ bytes ∧ bytes ≤ 47 ∧
      bytes = 35 + uintSize i.index.toNat + (uintSize (s.inputs.length + 1) - uintSize s.inputs.length) +
        (uintSize (remaining s') - uintSize (remaining s)) := by
  obtain ⟨c1, c2, c3, c4, c5⟩ : s'.inputs = pre ++ i :: post ∧ s'.outputs = s.outputs ∧ s'.ttl = s.ttl ∧ s'.metadata = s.metadata ∧ s'.protocol = s.protocol := by
    subst hs'; exact ⟨rfl, rfl, rfl, rfl, rfl⟩
  clear hs'
  have hsum : sumIn (pre ++ i :: post) = sumIn s.inputs + i.amount.toNat := by
    rw [hin]; simp only [sumIn, List.map_append, List.map_cons, List.sum_append, List.sum_cons]; omega
  have hlen : (pre ++ i :: post).length = s.inputs.length + 1 := by rw [hin]; simp only [List.length_append, List.length_cons]; omega
  have hsz : ((pre ++ i :: post).map inputSize).sum = (s.inputs.map inputSize).sum + inputSize i := by
    rw [hin]; simp only [List.map_append, List.map_cons, List.sum_append, List.sum_cons]; omega
  rw [c1] at hI hi
  have hge : ∀ l : List TxInput, 36 * l.length ≤ (l.map inputSize).sum := by
    intro l
    induction l with
    | nil => exact Nat.le_refl _
    | cons a l ih =>
      have := (uintSize_le a.index.toNat).1
      simp only [List.map_cons, List.sum_cons, List.length_cons, inputSize] at ih ⊢
      omega
  have hrem : remaining s ≤ remaining s' := by
    unfold remaining
    rw [c1, c2, hsum]
    exact Nat.sub_le_sub_right (Nat.sub_le_sub_right (Nat.le_add_right _ _) _) _
  have hr : ∀ f, reckoned s' f md =
      reckoned s f md + (35 + uintSize i.index.toNat + (uintSize (s.inputs.length + 1) - uintSize s.inputs.length) +
        (uintSize (remaining s') - uintSize (remaining s))) := by
    intro f
    have m1 := uintSize_mono (show s.inputs.length ≤ s.inputs.length + 1 by omega)
    rw [reckoned_parts, reckoned_parts, c1, c2, c3, hlen, hsz]
    exact parts_step _ _ _ _ _ _ _ m1 (uintSize_mono hrem)
  have hn : s.inputs.length < 65535 := by
    have h1 := hge (pre ++ i :: post)
    rw [hlen] at h1
    have h2 : ((pre ++ i :: post).map inputSize).sum ≤ reckoned s' 0 md := by
      rw [reckoned_parts, c1]
      exact Nat.le_trans (Nat.le_add_left _ _) (Nat.le_trans (Nat.le_add_right _ _) (Nat.le_add_right _ _))
    omega
  have h0 := hr 0
  obtain ⟨f1, w1⟩ := C141_fee H hH blake256 h256 s fee bs md hf hy (fun j hj => hi j (by
      rw [hin] at hj
      rcases List.mem_append.1 hj with h | h
      · exact List.mem_append_left _ h
      · exact List.mem_append_right _ (List.mem_cons_of_mem _ h))) ho hs hfix hper (by omega) hcover (by omega)
  obtain ⟨f2, w2⟩ := C141_fee H hH blake256 h256 s' fee' bs' md hf' hy' (by rw [c1]; exact hi) (by rw [c2]; exact ho) (by rw [c4]; exact hs)
    (by rw [c5]; exact hfix) (by rw [c5]; exact hper) (by rw [c1]; exact hI) (by rw [c1, c2]; omega) hmax
  refine ⟨_, ?_, ?_, ?_, rfl⟩
  · have e : ∀ z, uintSize z = 5 → reckoned s z md = reckoned s fee md := by
      intro z hz
      unfold reckoned exactSize
      rw [w1, hz]
    rw [hr fee', e fee' w2, c5] at f2
    rw [Nat.mul_add] at f2
    omega
  · have := (uintSize_le i.index.toNat).1
    omega
  · have h1 : uintSize i.index.toNat ≤ 3 := by
      have := i.index.toNat_lt
      unfold uintSize
      repeat' split
      all_goals omega
    have h2 := uintSize_step _ hn
    have h3 := (uintSize_le (remaining s')).2
    have h4 := (uintSize_le (remaining s)).1
    omega

theorem parts_out (n x r r' g g' p f t m c : Nat) :
    n + x + r' + (6 + (g' + (p + c) + 60) + f + t + 104 + m) + (r + g) = n + x + r + (6 + (g + p + 60) + f + t + 104 + m) + (c + g' + r') := by omega

theorem mul_parts (A a b c d B fee fee' : Nat) (h : a + c = b + d) (h1 : fee' = A * a + B) (h2 : fee = A * b + B) : fee' + A * c = fee + A * d := by
  have := congrArg (A * ·) h
  simp only [Nat.mul_add] at this
  omega

/-- **C141, the price of an output.** With an output added, wherever in the order, the fee rises by the price of the bytes of that output, and of those by which the number of outputs becomes
longer, less the price of those by which the change becomes shorter. -/
theorem C141_output_cost (H : Hashes) (hH : H.Ok) (blake256 : Bytes → Bytes) (h256 : ∀ m, (blake256 m).length = 32)
    (s s' : Session) (pre post : List TxOutput) (o : TxOutput) (fee fee' : Nat) (bs bs' : Bytes) (md : Option Nat)
    (hin : s.outputs = pre ++ post) (hs' : s' = { s with outputs := pre ++ o :: post })
    (hf : s.Fits) (hf' : s'.Fits) (hy : s.Yields (packageCrypto H blake256) fee bs) (hy' : s'.Yields (packageCrypto H blake256) fee' bs')
    (hi : ∀ j ∈ s.inputs, j.txHash.length = 32) (ho : ∀ q ∈ s'.outputs, OutputAddress (Addr.bytes q.address)) (hs : MetadataSize s.metadata md)
    (hfix : 65536 ≤ s.protocol.txFeeFixed.toNat ∧ s.protocol.txFeeFixed.toNat < 2 ^ 31) (hper : s.protocol.txFeePerByte.toNat < 2 ^ 16)
    (hI : sumIn s.inputs < 2 ^ 64) (hcover : sumOut s'.outputs + 200000 ≤ sumIn s.inputs) (hmax : reckoned s 0 md ≤ 16384) (hmax' : reckoned s' 0 md ≤ 16384) :
    fee' + s.protocol.txFeePerByte.toNat * (uintSize (remaining s) + uintSize (s.outputs.length + 1)) =
      fee + s.protocol.txFeePerByte.toNat * (3 + (Addr.bytes o.address).length + uintSize o.amount.toNat + uintSize (s.outputs.length + 2) + uintSize (remaining s')) := by
  obtain ⟨c1, c2, c3, c4, c5⟩ : s'.inputs = s.inputs ∧ s'.outputs = pre ++ o :: post ∧ s'.ttl = s.ttl ∧ s'.metadata = s.metadata ∧ s'.protocol = s.protocol := by
    subst hs'; exact ⟨rfl, rfl, rfl, rfl, rfl⟩
  clear hs'
  have hsum : sumOut (pre ++ o :: post) = sumOut s.outputs + o.amount.toNat := by
    rw [hin]; simp only [sumOut, List.map_append, List.map_cons, List.sum_append, List.sum_cons]; omega
  have hlen : (pre ++ o :: post).length = s.outputs.length + 1 := by rw [hin]; simp only [List.length_append, List.length_cons]; omega
  have hsz : ((outSizes (pre ++ o :: post)).map outputSize).sum = ((outSizes s.outputs).map outputSize).sum + (3 + (Addr.bytes o.address).length + uintSize o.amount.toNat) := by
    rw [hin, outSizes_append, outSizes_append, List.map_append, List.map_append, List.sum_append, List.sum_append]
    have : ((outSizes (o :: post)).map outputSize).sum = 3 + (Addr.bytes o.address).length + uintSize o.amount.toNat + ((outSizes post).map outputSize).sum := rfl
    rw [this]
    omega
  rw [c2] at hcover ho
  obtain ⟨f1, w1⟩ := C141_fee H hH blake256 h256 s fee bs md hf hy hi (fun q hq => ho q (by
      rw [hin] at hq
      rcases List.mem_append.1 hq with h | h
      · exact List.mem_append_left _ h
      · exact List.mem_append_right _ (List.mem_cons_of_mem _ h))) hs hfix hper hI (by omega) hmax
  obtain ⟨f2, w2⟩ := C141_fee H hH blake256 h256 s' fee' bs' md hf' hy' (by rw [c1]; exact hi) (by rw [c2]; exact ho) (by rw [c4]; exact hs)
    (by rw [c5]; exact hfix) (by rw [c5]; exact hper) (by rw [c1]; exact hI) (by rw [c1, c2]; exact hcover) hmax'
  rw [reckoned_parts] at f1 f2
  unfold otherSize at f1 f2
  rw [c1, c2, c3, c5, hlen, hsz, w2] at f2
  rw [w1] at f1
  exact mul_parts _ _ _ _ _ _ _ _ (parts_out ..) f2 f1

/-- **C141, what is lacking.** With any number of keys from one on, the fee differs from the least fee of the ledger for the bytes by the price of the witnesses after the first, and of the bytes by which
the change is longer or shorter than reckoned. (C125 has this for one key.) -/
theorem C141_lacking (H : Hashes) (hH : H.Ok) (blake256 : Bytes → Bytes) (h256 : ∀ m, (blake256 m).length = 32)
    (s : Session) (fee : Nat) (bs : Bytes) (md : Option Nat) (hf : s.Fits) (hy : s.Yields (packageCrypto H blake256) fee bs) (hk : s.keys ≠ [])
    (hi : ∀ i ∈ s.inputs, i.txHash.length = 32) (ho : ∀ o ∈ s.outputs, OutputAddress (Addr.bytes o.address)) (hch : OutputAddress (Addr.bytes s.change))
    (hs : MetadataSize s.metadata md)
    (hfix : 65536 ≤ s.protocol.txFeeFixed.toNat ∧ s.protocol.txFeeFixed.toNat < 2 ^ 31) (hper : s.protocol.txFeePerByte.toNat < 2 ^ 16)
    (hI : sumIn s.inputs < 2 ^ 64) (hcover : sumOut s.outputs + 200000 ≤ sumIn s.inputs) (hcover2 : sumOut s.outputs + fee ≤ sumIn s.inputs)
    (hmax : reckoned s 0 md ≤ 16384) (network slot : Nat) :
    let e := envOf s.protocol network slot
    e.minFeeA * bs.length + e.minFeeB + e.minFeeA * (57 + uintSize (remaining s) + 102) =
      fee + e.minFeeA * ((Addr.bytes s.change).length + uintSize (sumIn s.inputs - sumOut s.outputs - fee) + uintSize s.keys.length + 101 * s.keys.length) := by
  dsimp only [envOf]
  obtain ⟨f1, w1⟩ := C141_fee H hH blake256 h256 s fee bs md hf hy hi ho hs hfix hper hI hcover hmax
  have hb := C141_session_size H hH blake256 h256 s fee bs md hf hy hi ho hch hs hI hcover2
  refine mul_parts _ bs.length (reckoned s fee md) _ _ _ _ _ ?_ rfl f1
  rw [hb]
  unfold reckoned
  generalize remaining s = r
  generalize sumIn s.inputs - sumOut s.outputs - fee = ch
  unfold exactSize
  have h1 : uintSize 1 = 1 := by decide
  have h2 : s.keys.length ≠ 0 := fun h => hk (List.eq_nil_of_length_eq_zero h)
  rw [if_neg (by decide : ¬ 1 = 0), h1, if_neg h2, List.map_append, List.sum_append, List.length_append, List.length_singleton, outSizes_single, List.map_append, List.sum_append, List.length_append,
    List.length_singleton, outSizes_single]
  omega

/-! ### Examples -/

/-- One input, one output to a base address, a slot in two bytes more than the number, one key: 288 bytes. -/
example : reckoned (askedSession sampleAddr) 168053 none = 288 ∧ 168053 = 44 * 288 + 155381 := by decide +kernel

/-- The session of C125, with any keys and a second input of one ada and a second output of two. -/
def wider (ks : List Bytes) (more : List TxInput) (out : List TxOutput) : Session :=
  { askedSession sampleAddr with keys := ks, inputs := [⟨List.replicate 32 7, 0, 10000000⟩] ++ more, outputs := [⟨.base MainNet goldenPayment goldenStake, 5000000⟩] ++ out }

/-- The hypotheses are met, with one key and with two, with and without the second input, and with and without the second output. -/
example (H : Hashes) (hH : H.Ok) (blake256 : Bytes → Bytes) (ks : List Bytes) (hk : ks = [sampleKey] ∨ ks = [sampleKey, sampleKey])
    (more : List TxInput) (hm : more = [] ∨ more = [⟨List.replicate 32 8, 700, 1000000⟩])
    (out : List TxOutput) (ho : out = [] ∨ out = [⟨sampleAddr, 2000000⟩]) :
    ∃ fee bs, (wider ks more out).Yields (packageCrypto H blake256) fee bs ∧ (wider ks more out).Fits ∧ (wider ks more out).keys ≠ [] ∧
      (∀ i ∈ (wider ks more out).inputs, i.txHash.length = 32) ∧ (∀ o ∈ (wider ks more out).outputs, OutputAddress (Addr.bytes o.address)) ∧
      OutputAddress (Addr.bytes (wider ks more out).change) ∧ MetadataSize (wider ks more out).metadata none ∧ sumIn (wider ks more out).inputs < 2 ^ 64 ∧
      sumOut (wider ks more out).outputs + 200000 ≤ sumIn (wider ks more out).inputs ∧ reckoned (wider ks more out) 0 none ≤ 16384 := by
  have ho' : ∀ o ∈ (wider ks more out).outputs, OutputAddress (Addr.bytes o.address) := by
    intro o h
    rcases List.mem_append.1 h with h | h
    · rw [List.mem_singleton.1 h]; decide +kernel
    · rcases ho with rfl | rfl
      · cases h
      · rw [List.mem_singleton.1 h]; decide +kernel
  have hi' : ∀ i ∈ (wider ks more out).inputs, i.txHash.length = 32 := by
    intro i h
    rcases List.mem_append.1 h with h | h
    · rw [List.mem_singleton.1 h]; rfl
    · rcases hm with rfl | rfl
      · cases h
      · rw [List.mem_singleton.1 h]; rfl
  have hc : OutputAddress (Addr.bytes (wider ks more out).change) := by show OutputAddress (Addr.bytes sampleAddr); decide +kernel
  have hks : ∀ k ∈ ks, k.length = 96 ∧ leNat (k.take 32) < 2 ^ 255 := by
    intro k h
    have : k = sampleKey := by rcases hk with rfl | rfl <;> simpa using h
    rw [this]; exact sampleKey_ok
  obtain ⟨fee, bs, hy⟩ := C77_succeeds H hH blake256 (wider ks more out) (.inl rfl)
    (fun o h => by obtain ⟨ab, h1, -⟩ := outputAddress_written _ (ho' o h); exact ⟨ab, h1⟩)
    (by obtain ⟨ab, h1, -⟩ := outputAddress_written _ hc; exact ⟨ab, h1⟩) hks
  refine ⟨fee, bs, hy, ⟨?_, ?_, ?_, fun i h => by rw [hi' i h]; decide, fun o h => outputAddress_fits _ (ho' o h), outputAddress_fits _ hc, .inl rfl⟩, ?_, hi', ho', hc, rfl, ?_, ?_, ?_⟩
  all_goals clear hy ho' hi' hc hks
  all_goals rcases hk with rfl | rfl <;> rcases hm with rfl | rfl <;> rcases ho with rfl | rfl <;> decide +kernel

end Cardano.Props
