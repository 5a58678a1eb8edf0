import Verif.Props.Ledger
import Verif.Tx.Ops
/-!
# Property C96: the order of the calls on the builder
-/
set_option autoImplicit false

namespace Cardano.Props
open Cbor TxSpec Transaction TxBuilder Addr Bip32
open Ledger (read seen refOf outOf witOf Env UTxO OutputAddress readAux)

/-! ### Any builder -/

/-- `Build` and then `Bytes` of the result succeed, with the bytes `bs`. -/
def Finishes (C : Crypto) (b : Builder) (bs : Bytes) : Prop := ∃ h b' k, Build C b = (.ok h, b') ∧ bytes C (view b' h) k = .ok bs

/-- The transaction has the sizes that Go and CBOR can hold, and metadata that is always encoded to the same auxiliary data. -/
structure BuilderFits (b : Builder) : Prop where
  inputs : b.body.inputs.length < 2 ^ 63
  outputs : b.body.outputs.length < 2 ^ 63
  keys : b.xprvs.length < 2 ^ 63
  ids : ∀ i ∈ b.body.inputs, i.txHash.length < 2 ^ 63
  addrs : ∀ o ∈ b.body.outputs, AddressFits o.address
  aux : b.body.auxHash.length < 2 ^ 63
  metadata : GoodMetadata b.metadata

/-- The parts of a built transaction and of its bytes. -/
theorem finish_parts (C : Crypto) (b : Builder) (bs m : Bytes) (hb : Finishes C b bs) (hd : ∀ k, marshalMetadata b.metadata k = .ok m) :
    ∃ ws body, marshalBody { b.body with auxHash := auxOf C b.metadata b.body.auxHash m } = .ok body ∧
      bs = 0x84 :: (body ++ marshalWitness ws ++ encBool b.valid ++ m) ∧ witnessesOf C (C.blake256 body) b.xprvs = .ok ws := by
  obtain ⟨h, b', k, e, eb⟩ := hb
  obtain ⟨body, bb, ws, h1, h2, h3, h4, h5⟩ := build_ok C b b' h e
  have hv := view_build b b' h body ws h4 h5
  rw [calcAux_of C (tx b) m b.clock (hd _)] at h1
  injection h1 with h1
  have h1 : { b.body with auxHash := auxOf C b.metadata b.body.auxHash m } = body := h1
  rw [hv] at eb
  have hc2 : calcAux C ⟨body, ws, b.valid, b.metadata⟩ k = .ok body := by
    rw [calcAux_of C _ m k (hd k), ← h1]
    simp only [auxOf_idem]
  obtain ⟨body', e1, eb⟩ := bind_ok eb
  rw [hc2] at e1
  injection e1 with e1
  subst e1
  obtain ⟨bb', m', g1, g2, g3⟩ := marshalTx_parts _ _ _ eb
  have g1 : marshalBody body = .ok bb' := g1
  have g2 : marshalMetadata b.metadata _ = .ok m' := g2
  rw [h2] at g1
  injection g1 with g1
  subst g1
  rw [hd] at g2
  injection g2 with g2
  subst g2
  exact ⟨ws, bb, by rw [h1]; exact h2, g3, h3⟩

/-- What the ledger reads in the bytes, if it can read them: the inputs, outputs, fee and ttl of the builder. -/
theorem finish_read (H : Hashes) (hH : H.Ok) (blake256 : Bytes → Bytes) (h256 : ∀ m, (blake256 m).length = 32)
    (b : Builder) (bs : Bytes) (hf : BuilderFits b) (hy : Finishes (packageCrypto H blake256) b bs) (v : Ledger.TxView) (hv : read bs = some v) :
    v.inputs = b.body.inputs.map refOf ∧ v.outputs = b.body.outputs.map outOf ∧ v.fee = b.body.fee.toNat ∧ v.size = bs.length ∧
    v.ttl = (if b.body.ttl = 0 then none else some b.body.ttl.toNat) := by
  obtain ⟨m, x, hm, hx, -⟩ := goodMetadata_enc _ hf.metadata
  obtain ⟨ws, body, h1, h2, h3⟩ := finish_parts _ b bs m hy hm
  have hwl := witnessesOf_lengths _ (package_key_length H blake256) (package_sig_length H hH blake256) _ _ _ h3
  have hwf : WitnessFits ws := ⟨by rw [hwl.1]; exact hf.keys, fun w hw => by have := hwl.2 w hw; omega⟩
  have hbf : BodyFits { b.body with auxHash := auxOf (packageCrypto H blake256) b.metadata b.body.auxHash m } := by
    refine ⟨hf.inputs, hf.outputs, hf.ids, hf.addrs, ?_⟩
    show (auxOf _ _ _ _).length < _
    cases b.metadata with
    | none => exact hf.aux
    | some d => show (blake256 m).length < _; rw [h256]; decide
  have hread := Ledger.read_bytes _ ws b.valid body m x hbf hwf h1 hx
  rw [← h2] at hread
  dsimp only at hread
  rw [hv] at hread
  obtain ⟨aux, -, rfl, -⟩ := Ledger.assemble_of _ _ _ _ _ _ _ _ hread.symm
  exact ⟨rfl, rfl, rfl, rfl, rfl⟩

/-! ### Without `AddChangeIfNeeded` -/

/-- No call of `AddChangeIfNeeded`. -/
def NoChange (ops : List Op) : Prop := ∀ op ∈ ops, ∀ a, op ≠ .addChange a

/-- Only `AddChangeIfNeeded` sets the fee. -/
theorem run_fee (C : Crypto) (ops : List Op) : ∀ b : Builder, NoChange ops → (run C b ops).body.fee = b.body.fee := by
  induction ops with
  | nil => intro b _; rfl
  | cons op ops ih =>
    intro b hn
    show (run C (step C b op) ops).body.fee = _
    rw [ih _ (fun o ho => hn o (List.mem_cons_of_mem _ ho))]
    cases op with
    | addChange a => exact absurd rfl (hn _ List.mem_cons_self a)
    | build =>
      show (Build C b).2.body.fee = _
      have := (afterAux_fields C (tx b) b.clock).2.2.2
      unfold Build; simp only
      split
      · exact this
      · exact this
      · split <;> exact this
    | bytesOf h => exact (afterAux_fields C (view b h) b.clock).2.2.2
    | _ => rfl

/-- **C96: no `AddChangeIfNeeded`.** Whatever else is called, in whatever order, the fee is zero, and the ledger rejects. -/
theorem C96_without_change_rejected (H : Hashes) (hH : H.Ok) (blake224 blake256 : Bytes → Bytes) (h256 : ∀ m, (blake256 m).length = 32)
    (p : Protocol) (ks : List Bytes) (ops : List Op) (hops : NoChange ops) (u : UTxO) (e : Env) (bs : Bytes)
    (hf : BuilderFits (run (packageCrypto H blake256) (NewTxBuilder p ks) ops))
    (hy : Finishes (packageCrypto H blake256) (run (packageCrypto H blake256) (NewTxBuilder p ks) ops) bs) (he : 0 < e.minFeeB) :
    ¬ Ledger.Valid (ledgerCrypto H blake224 blake256) e u bs := by
  rintro ⟨v, hv, ha⟩
  obtain ⟨-, -, h3, -⟩ := finish_read H hH blake256 h256 _ bs hf hy v hv
  rw [run_fee _ ops _ hops] at h3
  have h3 : v.fee = 0 := h3
  have := ha.fee
  omega

/-! ### Calls after `AddChangeIfNeeded` -/

theorem sumIn_append (l l' : List TxInput) : sumIn (l ++ l') = sumIn l + sumIn l' := by simp [sumIn]
theorem sumOut_append (l l' : List TxOutput) : sumOut (l ++ l') = sumOut l + sumOut l' := by simp [sumOut]

/-- The inputs are distinct, and the unspent outputs are as they say. -/
structure StatedRight (u : UTxO) (inputs : List TxInput) : Prop where
  amounts : ∀ i ∈ inputs, ∃ a, u (refOf i) = some (a, i.amount.toNat)
  distinct : (inputs.map refOf).Nodup

/-- The ledger accepts a built transaction only if it balances. -/
theorem finish_balance (H : Hashes) (hH : H.Ok) (blake224 blake256 : Bytes → Bytes) (h256 : ∀ m, (blake256 m).length = 32)
    (b : Builder) (u : UTxO) (e : Env) (bs : Bytes) (hf : BuilderFits b) (hy : Finishes (packageCrypto H blake256) b bs)
    (hu : StatedRight u b.body.inputs) (hval : Ledger.Valid (ledgerCrypto H blake224 blake256) e u bs) :
    sumIn b.body.inputs = sumOut b.body.outputs + b.body.fee.toNat := by
  obtain ⟨v, hv, ha⟩ := hval
  obtain ⟨h1, h2, h3, -⟩ := finish_read H hH blake256 h256 b bs hf hy v hv
  have hc := ha.conserved
  rw [h1, h2, h3, sum_map_outOf, List.sum_toFinset _ hu.distinct, amounts_sum u _ hu.amounts] at hc
  exact hc

/-- **C96: inputs and outputs after `AddChangeIfNeeded`.** The ledger accepts only if what was there when `AddChangeIfNeeded` was called covered the outputs and the fee, and
the amounts of the inputs and the outputs added later are equal. -/
theorem C96_later_calls_balance (H : Hashes) (hH : H.Ok) (blake224 blake256 : Bytes → Bytes) (h256 : ∀ m, (blake256 m).length = 32)
    (b b2 : Builder) (addr : Address) (ops : List Op) (hops : NoChange ops) (u : UTxO) (e : Env) (bs : Bytes)
    (h2 : b2 = run (packageCrypto H blake256) (AddChangeIfNeeded (packageCrypto H blake256) b addr) ops)
    (hf : BuilderFits b2) (hy : Finishes (packageCrypto H blake256) b2 bs)
    (hu : StatedRight u b2.body.inputs) (hI : sumIn b2.body.inputs < 2 ^ 64)
    (hval : Ledger.Valid (ledgerCrypto H blake224 blake256) e u bs) :
    sumOut b.body.outputs + b2.body.fee.toNat ≤ sumIn b.body.inputs ∧ sumIn (ops.flatMap inputsOf) = sumOut (ops.flatMap outputsOf) := by
  have hb := finish_balance H hH blake224 blake256 h256 b2 u e bs hf hy hu hval
  generalize packageCrypto H blake256 = C at *
  obtain ⟨e1, -, -, -, -, e2⟩ := C29_history C ops (AddChangeIfNeeded C b addr)
  have e2 := e2 hops
  have e3 := run_fee C ops (AddChangeIfNeeded C b addr) hops
  rw [← h2] at e1 e2 e3
  rw [show (AddChangeIfNeeded C b addr).body.inputs = b.body.inputs from rfl] at e1
  rw [show (AddChangeIfNeeded C b addr).body.outputs =
    b.body.outputs ++ [⟨addr, totalIn b.body.inputs - totalOut b.body.outputs - (MinFee C b).1⟩] from rfl] at e2
  rw [show (AddChangeIfNeeded C b addr).body.fee = (MinFee C b).1 from rfl] at e3
  rw [e1, sumIn_append] at hI
  rw [e1, e2, e3, sumIn_append, sumOut_append, sumOut_snoc] at hb
  rw [e3]
  have hc : (totalIn b.body.inputs - totalOut b.body.outputs - (MinFee C b).1).toNat = 
      (2 ^ 64 - (MinFee C b).1.toNat + (2 ^ 64 - sumOut b.body.outputs + sumIn b.body.inputs) % 2 ^ 64) % 2 ^ 64 := by
    rw [UInt64.toNat_sub, UInt64.toNat_sub, totalIn_toNat, totalOut_toNat, Nat.mod_eq_of_lt (show sumIn b.body.inputs < 2 ^ 64 by omega),
      Nat.mod_eq_of_lt (show sumOut b.body.outputs < 2 ^ 64 by omega)]
  simp only at hb
  rw [hc] at hb
  have := UInt64.toNat_lt (MinFee C b).1
  generalize (MinFee C b).1.toNat = f at *
  omega

/-- **C96: a payment added after `AddChangeIfNeeded`** is not paid: the ledger rejects. -/
theorem C96_output_after_change_rejected (H : Hashes) (hH : H.Ok) (blake224 blake256 : Bytes → Bytes) (h256 : ∀ m, (blake256 m).length = 32)
    (b : Builder) (addr : Address) (l : List TxOutput) (u : UTxO) (e : Env) (bs : Bytes)
    (hf : BuilderFits (AddOutputs (AddChangeIfNeeded (packageCrypto H blake256) b addr) l))
    (hy : Finishes (packageCrypto H blake256) (AddOutputs (AddChangeIfNeeded (packageCrypto H blake256) b addr) l) bs)
    (hu : StatedRight u b.body.inputs) (hI : sumIn b.body.inputs < 2 ^ 64) (hl : 0 < sumOut l) :
    ¬ Ledger.Valid (ledgerCrypto H blake224 blake256) e u bs := by
  intro hval
  have := (C96_later_calls_balance H hH blake224 blake256 h256 b _ addr [.addOutputs l] (by intro op hop a; rw [List.mem_singleton.1 hop]; nofun) u e bs rfl hf hy hu hI hval).2
  simp only [List.flatMap_cons, List.flatMap_nil, inputsOf, outputsOf, List.append_nil] at this
  have h0 : sumIn [] = 0 := rfl
  omega

/-- **C96: an input added after `AddChangeIfNeeded`** gets no change: the ledger rejects, so the money is not lost. In particular `AddInputs` must come first. -/
theorem C96_input_after_change_rejected (H : Hashes) (hH : H.Ok) (blake224 blake256 : Bytes → Bytes) (h256 : ∀ m, (blake256 m).length = 32)
    (b : Builder) (addr : Address) (l : List TxInput) (u : UTxO) (e : Env) (bs : Bytes)
    (hf : BuilderFits (AddInputs (AddChangeIfNeeded (packageCrypto H blake256) b addr) l))
    (hy : Finishes (packageCrypto H blake256) (AddInputs (AddChangeIfNeeded (packageCrypto H blake256) b addr) l) bs)
    (hu : StatedRight u (b.body.inputs ++ l)) (hI : sumIn (b.body.inputs ++ l) < 2 ^ 64) (hl : 0 < sumIn l) :
    ¬ Ledger.Valid (ledgerCrypto H blake224 blake256) e u bs := by
  intro hval
  have := (C96_later_calls_balance H hH blake224 blake256 h256 b _ addr [.addInputs l] (by intro op hop a; rw [List.mem_singleton.1 hop]; nofun) u e bs rfl hf hy hu hI hval).2
  simp only [List.flatMap_cons, List.flatMap_nil, inputsOf, outputsOf, List.append_nil] at this
  have h0 : sumOut [] = 0 := rfl
  omega

/-! ### The fee after later calls -/

/-- Bytes of the time to live in the body. -/
def ttlSize (n : UInt32) : Nat := if n = 0 then 0 else 1 + uintSize n.toNat

/-- Bytes of the metadata: null, or the entry for the hash in the body and the data `m`. -/
def metadataSize (md : Option Metadata) (m : Bytes) : Nat := auxSize md + m.length

/-- Size of a built transaction. -/
theorem finish_size (C : Crypto) (hH : ∀ m, (C.blake256 m).length = 32)
    (hpk : ∀ k pk, C.publicKey k = .ok pk → pk.length = 32) (hsg : ∀ k msg s, C.sign k msg = .ok s → s.length = 64)
    (b : Builder) (bs m : Bytes) (hy : Finishes C b bs) (hd : ∀ k, marshalMetadata b.metadata k = .ok m)
    (hx : b.metadata = none → b.body.auxHash = []) (hk : b.xprvs.length < 2 ^ 63) :
    ∃ outs, collect (b.body.outputs.map marshalOutput) = .ok outs ∧
      bs.length = 6 + (encArray (b.body.inputs.map marshalInput)).length + (encArray outs).length + uintSize b.body.fee.toNat +
        ttlSize b.body.ttl + metadataSize b.metadata m + wsize b.xprvs.length := by
  obtain ⟨ws, body, h1, h2, h3⟩ := finish_parts C b bs m hy hd
  have hxx : auxOf C b.metadata b.body.auxHash m = auxOf C b.metadata [] m := by
    cases hmd : b.metadata with
    | none => exact hx hmd
    | some d => rfl
  have has := auxSize_of C hH b.metadata m
  rw [hxx] at h1
  obtain ⟨outs, ho, hl⟩ := body_length _ _ h1 has.1
  have hall := witnessesOf_ok C _ _ _ h3
  have hwl : ws.length = b.xprvs.length := All2.length_eq hall
  have hstd : StdWit ws := by
    intro w hw
    obtain ⟨y, _, h1, h2⟩ := All2.mem_left hall w hw
    exact ⟨hpk _ _ h1, hsg _ _ _ h2⟩
  have w1 := witness_length ws hstd (by omega)
  have w1' : (marshalWitness ws).length = wsize b.xprvs.length := by rw [w1, ← hwl]; rfl
  refine ⟨outs, ho, ?_⟩
  have hv : (encBool b.valid).length = 1 := by cases b.valid <;> rfl
  simp only [has.2] at hl
  rw [h2, List.length_cons, List.length_append, List.length_append, List.length_append, hl, w1', hv]
  unfold ttlSize metadataSize
  omega

/-- `MinFee` of a builder without witnesses, when the inputs are more than the outputs. -/
theorem minFee_size (C : Crypto) (hH : ∀ m, (C.blake256 m).length = 32) (b : Builder) (m : Bytes) (as : List Bytes)
    (hd : ∀ k, marshalMetadata b.metadata k = .ok m) (hfw : feeWits b = [dummyWitness])
    (ho : collect (b.body.outputs.map marshalOutput) = .ok as) (hol : b.body.outputs.length + 1 < 2 ^ 64)
    (hne : totalIn b.body.inputs ≠ totalOut b.body.outputs) :
    ∃ (len1 len2 : Nat) (fee1 : UInt64),
      fee1 = b.protocol.txFeeFixed + b.protocol.txFeePerByte * UInt64.ofNat len1 ∧
      (MinFee C b).1 = b.protocol.txFeeFixed + b.protocol.txFeePerByte * UInt64.ofNat len2 ∧
      len1 + uintSize fee1.toNat = len2 + uintSize b.body.fee.toNat ∧
      len2 = 6 + (encArray (b.body.inputs.map marshalInput)).length + (uintSize (b.body.outputs.length + 1) + as.flatten.length + 
        (60 + uintSize (totalIn b.body.inputs - totalOut b.body.outputs - 200000).toNat)) + uintSize fee1.toNat +
        ttlSize b.body.ttl + metadataSize b.metadata m + 104 := by
  have hfo : feeOuts b = b.body.outputs ++ [⟨innerAddr, totalIn b.body.inputs - totalOut b.body.outputs - 200000⟩] := by
    unfold feeOuts; rw [if_pos hne]
  obtain ⟨ib, hib, hibl⟩ := innerAddr_bytes
  have hd2 : marshalOutput ⟨innerAddr, totalIn b.body.inputs - totalOut b.body.outputs - 200000⟩ =
      .ok (encArray [ib, encUint (totalIn b.body.inputs - totalOut b.body.outputs - 200000)]) := by
    unfold marshalOutput; simp only [hib, Res.ok_bind]; rfl
  obtain ⟨ib', hib', hdl⟩ := output_length _ _ _ hd2
  rw [hib] at hib'
  injection hib' with hib'
  subst hib'
  have hcoll : collect ((feeOuts b).map marshalOutput) =
      .ok (as ++ [encArray [ib, encUint (totalIn b.body.inputs - totalOut b.body.outputs - 200000)]]) := by
    rw [hfo]; exact (collect_append _ _ _).2 ⟨as, _, ho, hd2, rfl⟩
  obtain ⟨len1, len2, fee1, f1, f2, base, g0, g1, g2⟩ := minFee_of C hH b m.length _ (fun k => ⟨m, hd k, rfl⟩) hcoll
  have hasl : as.length = b.body.outputs.length := (collect_ok _ _ ho).1
  have e2 := encArray_snoc_length as (encArray [ib, encUint (totalIn b.body.inputs - totalOut b.body.outputs - 200000)]) (by omega)
  rw [hfw, show (marshalWitness [dummyWitness]).length = 104 by decide, e2, hdl, hasl] at g0
  refine ⟨len1, len2, fee1, f1, f2, by omega, ?_⟩
  unfold ttlSize metadataSize
  omega

theorem size5 (n : Nat) (h1 : 65536 ≤ n) (h2 : n < 2 ^ 32) : uintSize n = 5 := by
  unfold uintSize; repeat' split
  all_goals omega

theorem metadataSize_pos (md : Option Metadata) (m : Bytes) (k : Nat) (h : marshalMetadata md k = .ok m) : md = none → metadataSize md m = 1 := by
  rintro rfl
  have : encNil = m := by injection h
  rw [← this]; rfl

/-- The sizes and the parameters are of the order of magnitude of those in use. -/
structure UsualFees (p : Protocol) : Prop where
  fixed : 65536 ≤ p.txFeeFixed.toNat ∧ p.txFeeFixed.toNat < 2 ^ 31
  perByte : 0 < p.txFeePerByte.toNat ∧ p.txFeePerByte.toNat < 2 ^ 16

theorem UsualFees.mul {p : Protocol} (h : UsualFees p) (len : Nat) (hl : len < 2 ^ 15) : p.txFeePerByte.toNat * len < 2 ^ 31 := by
  calc p.txFeePerByte.toNat * len ≤ p.txFeePerByte.toNat * 2 ^ 15 := Nat.mul_le_mul_left _ (by omega)
      _ < 2 ^ 16 * 2 ^ 15 := Nat.mul_lt_mul_of_pos_right h.perByte.2 (by decide)
      _ = 2 ^ 31 := by decide

/-- **C96: later calls that change the size.** Between `AddChangeIfNeeded` and `Build` come calls other than `AddInputs`, `AddOutputs`, `AddChangeIfNeeded`. The fee is the linear fee of
the size of the built transaction, corrected by the price of the difference between what `AddChangeIfNeeded` counted (a placeholder of 59 bytes for the address; input - output - 200000; the time
to live and metadata of that moment; one witness) and what is there in the end. -/
theorem C96_late_fee_exact (C : Crypto) (hH : ∀ m, (C.blake256 m).length = 32)
    (hpk : ∀ k pk, C.publicKey k = .ok pk → pk.length = 32) (hsg : ∀ k msg s, C.sign k msg = .ok s → s.length = 64)
    (b b2 : Builder) (addr : Address) (ops : List Op) (hops : NoChange ops) (hin : ops.flatMap inputsOf = []) (hout : ops.flatMap outputsOf = [])
    (h2 : b2 = run C (AddChangeIfNeeded C b addr) ops) (bs ab m m2 : Bytes) (hy : Finishes C b2 bs)
    (hd : ∀ k, marshalMetadata b.metadata k = .ok m) (hml : m.length ≤ 16000) (hd2 : ∀ k, marshalMetadata b2.metadata k = .ok m2)
    (hx : b2.metadata = none → b2.body.auxHash = []) (hw : feeWits b = [dummyWitness]) (hk : b2.xprvs.length < 2 ^ 63)
    (hol : b.body.outputs.length < 2 ^ 32) (hab : marshalAddress addr = .ok ab)
    (hI : sumIn b.body.inputs < 2 ^ 64) (hcover : sumOut b.body.outputs + b2.body.fee.toNat ≤ sumIn b.body.inputs)
    (hcover2 : sumOut b.body.outputs + 200000 ≤ sumIn b.body.inputs) (hp : UsualFees b.protocol) (hmax : bs.length ≤ 16384) :
    b2.body.fee.toNat + b.protocol.txFeePerByte.toNat * (ab.length + uintSize (sumIn b.body.inputs - sumOut b.body.outputs - b2.body.fee.toNat) +
        ttlSize b2.body.ttl + metadataSize b2.metadata m2 + wsize b2.xprvs.length) =
      linearFee b.protocol bs.length + b.protocol.txFeePerByte.toNat * (59 + uintSize (sumIn b.body.inputs - sumOut b.body.outputs - 200000) +
        ttlSize b.body.ttl + metadataSize b.metadata m + wsize 1) := by
  obtain ⟨e1, -, -, -, -, e2⟩ := C29_history C ops (AddChangeIfNeeded C b addr)
  have e2 := e2 hops
  have e3 := run_fee C ops (AddChangeIfNeeded C b addr) hops
  rw [← h2] at e1 e2 e3
  rw [hin, List.append_nil, show (AddChangeIfNeeded C b addr).body.inputs = b.body.inputs from rfl] at e1
  rw [hout, List.append_nil, show (AddChangeIfNeeded C b addr).body.outputs =
    b.body.outputs ++ [⟨addr, totalIn b.body.inputs - totalOut b.body.outputs - (MinFee C b).1⟩] from rfl] at e2
  rw [show (AddChangeIfNeeded C b addr).body.fee = (MinFee C b).1 from rfl] at e3
  obtain ⟨outs, ho, hs⟩ := finish_size C hH hpk hsg b2 bs m2 hy hd2 hx hk
  rw [e2] at ho
  obtain ⟨as, a, ho1, ho2, ho3⟩ := (collect_append _ _ _).1 ho
  obtain ⟨ab', hab', hal⟩ := output_length _ _ _ ho2
  rw [hab] at hab'
  injection hab' with hab'
  subst hab'
  have hasl : as.length = b.body.outputs.length := (collect_ok _ _ ho1).1
  obtain ⟨len1, len2, fee1, f1, f2, hl, hs2⟩ := minFee_size C hH b m as hd hw ho1 (by omega) (total_ne b hI (by omega))
  rw [ho3, encArray_snoc_length as a (by omega), hasl, hal, e1, e3] at hs
  rw [e3] at hcover ⊢
  have hch := sub_toNat b (MinFee C b).1 hI hcover
  have hph := sub_toNat b 200000 hI (by rw [show (200000 : UInt64).toNat = 200000 from rfl]; omega)
  rw [show (200000 : UInt64).toNat = 200000 from rfl] at hph
  have u1 := uintSize_le b.body.fee.toNat
  have u2 := uintSize_le fee1.toNat
  have u3 := uintSize_le (MinFee C b).1.toNat
  have u4 := uintSize_le (totalIn b.body.inputs - totalOut b.body.outputs - 200000).toNat
  have u5 : ttlSize b.body.ttl ≤ 10 := by unfold ttlSize; have := uintSize_le b.body.ttl.toNat; split <;> omega
  have u6 : metadataSize b.metadata m ≤ 16035 := by unfold metadataSize auxSize; split <;> omega
  have m1 := hp.mul len1 (by omega)
  have m2' := hp.mul len2 (by omega)
  have := hp.fixed
  have F1 := toNat_formula b.protocol.txFeeFixed b.protocol.txFeePerByte len1 (by omega) (by omega)
  have F2 := toNat_formula b.protocol.txFeeFixed b.protocol.txFeePerByte len2 (by omega) (by omega)
  rw [← f1] at F1
  rw [← f2] at F2
  rw [size5 fee1.toNat (by omega) (by omega), hph] at hs2
  rw [size5 (MinFee C b).1.toNat (by omega) (by omega), hch] at hs
  rw [show wsize 1 = 104 by decide]
  have hle : len2 + (ab.length + uintSize (sumIn b.body.inputs - sumOut b.body.outputs - (MinFee C b).1.toNat) +
        ttlSize b2.body.ttl + metadataSize b2.metadata m2 + wsize b2.xprvs.length) =
      bs.length + (59 + uintSize (sumIn b.body.inputs - sumOut b.body.outputs - 200000) + ttlSize b.body.ttl + metadataSize b.metadata m + 104) := by omega
  have := congrArg (b.protocol.txFeePerByte.toNat * ·) hle
  simp only [Nat.mul_add] at this
  unfold linearFee
  simp only [Nat.mul_add]
  omega

/-- **C96: `SetTTL` after `AddChangeIfNeeded`.** If no time to live was set before, change goes to a base address (or a longer one), and the fee is at most 200000, then the fee does not pay for
the time to live and the ledger rejects. -/
theorem C96_ttl_after_change_rejected (H : Hashes) (hH : H.Ok) (blake224 blake256 : Bytes → Bytes) (h256 : ∀ m, (blake256 m).length = 32)
    (b : Builder) (addr : Address) (n : UInt32) (u : UTxO) (network slot : Nat) (bs ab : Bytes)
    (hf : BuilderFits (SetTTL (AddChangeIfNeeded (packageCrypto H blake256) b addr) n))
    (hy : Finishes (packageCrypto H blake256) (SetTTL (AddChangeIfNeeded (packageCrypto H blake256) b addr) n) bs)
    (hm : b.metadata = none) (hx : b.body.auxHash = []) (hw : feeWits b = [dummyWitness]) (hk : b.xprvs.length ≠ 0) (hol : b.body.outputs.length < 2 ^ 32)
    (ht : b.body.ttl = 0) (hn : n ≠ 0) (hab : marshalAddress addr = .ok ab) (habl : 59 ≤ ab.length)
    (hI : sumIn b.body.inputs < 2 ^ 64) (hfee : (MinFee (packageCrypto H blake256) b).1.toNat ≤ 200000)
    (hcover : sumOut b.body.outputs + 200000 ≤ sumIn b.body.inputs) (hp : UsualFees b.protocol) (hmax : bs.length ≤ 16384) :
    ¬ Ledger.Valid (ledgerCrypto H blake224 blake256) (envOf b.protocol network slot) u bs := by
  rintro ⟨v, hv, ha⟩
  obtain ⟨-, -, h3, h4, -⟩ := finish_read H hH blake256 h256 _ bs hf hy v hv
  have hfe : b.protocol.txFeePerByte.toNat * v.size + b.protocol.txFeeFixed.toNat ≤ v.fee := ha.fee
  rw [h3, h4] at hfe
  have hkk := hf.keys
  generalize hb2 : SetTTL (AddChangeIfNeeded (packageCrypto H blake256) b addr) n = b2 at *
  have hbf : b2.body.fee = (MinFee (packageCrypto H blake256) b).1 := by rw [← hb2]; rfl
  have hbm : b2.metadata = none := by rw [← hb2]; exact hm
  have hbt : b2.body.ttl = n := by rw [← hb2]; rfl
  have hbk : b2.xprvs = b.xprvs := by rw [← hb2]; rfl
  have := C96_late_fee_exact (packageCrypto H blake256) h256 (package_key_length H blake256) (package_sig_length H hH blake256) b b2 addr [.setTTL n]
    (by intro op hop a; rw [List.mem_singleton.1 hop]; nofun) rfl rfl hb2.symm bs ab encNil encNil hy (fun k => by rw [hm]; rfl) (by decide)
    (fun k => by rw [hbm]; rfl) (fun _ => by rw [← hb2]; exact hx) hw hkk hol hab hI (by rw [hbf]; omega) hcover hp hmax
  have hm1 := uintSize_mono (show sumIn b.body.inputs - sumOut b.body.outputs - 200000 ≤ sumIn b.body.inputs - sumOut b.body.outputs - b2.body.fee.toNat by
    rw [hbf]; omega)
  have hws := wsize_mono (show 1 ≤ b2.xprvs.length by rw [hbk]; omega)
  have hlt : 59 + uintSize (sumIn b.body.inputs - sumOut b.body.outputs - 200000) + ttlSize b.body.ttl + metadataSize b.metadata encNil + wsize 1 <
      ab.length + uintSize (sumIn b.body.inputs - sumOut b.body.outputs - b2.body.fee.toNat) + ttlSize b2.body.ttl + metadataSize b2.metadata encNil + wsize b2.xprvs.length := by
    rw [hm, hbm, ht, hbt]
    unfold ttlSize
    rw [if_pos rfl, if_neg hn]
    omega
  have := Nat.mul_lt_mul_of_pos_left hlt hp.perByte.1
  unfold linearFee at *
  omega

/-- **C96: metadata after `AddChangeIfNeeded`.** If there was none before and the fee is at most 200000, the fee does not pay for the metadata and the ledger rejects. -/
theorem C96_metadata_after_change_rejected (H : Hashes) (hH : H.Ok) (blake224 blake256 : Bytes → Bytes) (h256 : ∀ m, (blake256 m).length = 32)
    (b : Builder) (addr : Address) (d : Metadata) (u : UTxO) (network slot : Nat) (bs ab : Bytes)
    (hf : BuilderFits (setMetadata (AddChangeIfNeeded (packageCrypto H blake256) b addr) (some d)))
    (hy : Finishes (packageCrypto H blake256) (setMetadata (AddChangeIfNeeded (packageCrypto H blake256) b addr) (some d)) bs)
    (hm : b.metadata = none) (hw : feeWits b = [dummyWitness]) (hk : b.xprvs.length ≠ 0) (hol : b.body.outputs.length < 2 ^ 32)
    (hab : marshalAddress addr = .ok ab) (habl : 30 ≤ ab.length)
    (hI : sumIn b.body.inputs < 2 ^ 64) (hfee : (MinFee (packageCrypto H blake256) b).1.toNat ≤ 200000)
    (hcover : sumOut b.body.outputs + 200000 ≤ sumIn b.body.inputs) (hp : UsualFees b.protocol) (hmax : bs.length ≤ 16384) :
    ¬ Ledger.Valid (ledgerCrypto H blake224 blake256) (envOf b.protocol network slot) u bs := by
  rintro ⟨v, hv, ha⟩
  obtain ⟨-, -, h3, h4, -⟩ := finish_read H hH blake256 h256 _ bs hf hy v hv
  have hfe : b.protocol.txFeePerByte.toNat * v.size + b.protocol.txFeeFixed.toNat ≤ v.fee := ha.fee
  rw [h3, h4] at hfe
  have hkk := hf.keys
  obtain ⟨m2, x, hm2, -, -⟩ := goodMetadata_enc _ hf.metadata
  generalize hb2 : setMetadata (AddChangeIfNeeded (packageCrypto H blake256) b addr) (some d) = b2 at *
  have hbf : b2.body.fee = (MinFee (packageCrypto H blake256) b).1 := by rw [← hb2]; rfl
  have hbm : b2.metadata = some d := by rw [← hb2]; rfl
  have hbt : b2.body.ttl = b.body.ttl := by rw [← hb2]; rfl
  have hbk : b2.xprvs = b.xprvs := by rw [← hb2]; rfl
  have := C96_late_fee_exact (packageCrypto H blake256) h256 (package_key_length H blake256) (package_sig_length H hH blake256) b b2 addr [.setMetadata (some d)]
    (by intro op hop a; rw [List.mem_singleton.1 hop]; nofun) rfl rfl hb2.symm bs ab encNil m2 hy (fun k => by rw [hm]; rfl) (by decide)
    hm2 (fun h => by rw [hbm] at h; cases h) hw hkk hol hab hI (by rw [hbf]; omega) hcover hp hmax
  have hm1 := uintSize_mono (show sumIn b.body.inputs - sumOut b.body.outputs - 200000 ≤ sumIn b.body.inputs - sumOut b.body.outputs - b2.body.fee.toNat by
    rw [hbf]; omega)
  have hws := wsize_mono (show 1 ≤ b2.xprvs.length by rw [hbk]; omega)
  have hlt : 59 + uintSize (sumIn b.body.inputs - sumOut b.body.outputs - 200000) + ttlSize b.body.ttl + metadataSize b.metadata encNil + wsize 1 <
      ab.length + uintSize (sumIn b.body.inputs - sumOut b.body.outputs - b2.body.fee.toNat) + ttlSize b2.body.ttl + metadataSize b2.metadata m2 + wsize b2.xprvs.length := by
    rw [hm, hbm, hbt, show metadataSize none encNil = 1 from rfl, show metadataSize (some d) m2 = 35 + m2.length from rfl]
    omega
  have := Nat.mul_lt_mul_of_pos_left hlt hp.perByte.1
  unfold linearFee at *
  omega

/-! ### `AddChangeIfNeeded` twice -/

theorem feeWits_addChange (C : Crypto) (b : Builder) (addr : Address) : feeWits (AddChangeIfNeeded C b addr) = feeWits b := by
  unfold feeWits
  have e : witAt (AddChangeIfNeeded C b addr) (AddChangeIfNeeded C b addr).wit =
      if (witAt b b.wit).length = 0 then (b.wits.set b.wit [dummyWitness]).getD b.wit [] else witAt b b.wit := by
    show (if (witAt b b.wit).length = 0 then b.wits.set b.wit [dummyWitness] else b.wits).getD b.wit [] = _
    split <;> rfl
  rw [e]
  by_cases h : (witAt b b.wit).length = 0
  · rw [if_pos h, if_pos h]
    by_cases hb : b.wit < b.wits.length
    · rw [List.getD_eq_getElem?_getD, List.getElem?_set_self hb]; rfl
    · rw [List.getD_eq_getElem?_getD, List.getElem?_eq_none (by rw [List.length_set]; omega)]; rfl
  · rw [if_neg h, if_neg h]

/-- **C96: `AddChangeIfNeeded` twice.** The second call counts a larger transaction, so its fee is higher, but everything has been given away: the second change would be negative, and the
ledger rejects. -/
theorem C96_change_twice_rejected (H : Hashes) (hH : H.Ok) (blake224 blake256 : Bytes → Bytes) (h256 : ∀ m, (blake256 m).length = 32)
    (b : Builder) (addr addr2 : Address) (u : UTxO) (e : Env) (bs ab m : Bytes)
    (hf : BuilderFits (AddChangeIfNeeded (packageCrypto H blake256) (AddChangeIfNeeded (packageCrypto H blake256) b addr) addr2))
    (hy : Finishes (packageCrypto H blake256) (AddChangeIfNeeded (packageCrypto H blake256) (AddChangeIfNeeded (packageCrypto H blake256) b addr) addr2) bs)
    (hd : ∀ k, marshalMetadata b.metadata k = .ok m) (hx : b.metadata = none → b.body.auxHash = []) (hw : feeWits b = [dummyWitness])
    (hol : b.body.outputs.length < 2 ^ 32) (hab : marshalAddress addr = .ok ab) (habl : 9 ≤ ab.length)
    (hu : StatedRight u b.body.inputs) (hI : sumIn b.body.inputs < 2 ^ 64) (hp : UsualFees b.protocol) (hmax : bs.length ≤ 16384) 
    (hlt : sumOut b.body.outputs < sumIn b.body.inputs) :
    ¬ Ledger.Valid (ledgerCrypto H blake224 blake256) e u bs := by
  intro hval
  have hb := (C96_later_calls_balance H hH blake224 blake256 h256 (AddChangeIfNeeded (packageCrypto H blake256) b addr) _ addr2 [] nofun u e bs rfl hf hy hu hI hval).1
  have hk := hf.keys
  obtain ⟨outs, ho, hs⟩ := finish_size (packageCrypto H blake256) h256 (package_key_length H blake256) (package_sig_length H hH blake256) _ bs m hy hd hx hk
  have h256' : ∀ m, ((packageCrypto H blake256).blake256 m).length = 32 := h256
  generalize packageCrypto H blake256 = C at *
  generalize hb1 : AddChangeIfNeeded C b addr = b1 at *
  have i1 : b1.body.inputs = b.body.inputs := by rw [← hb1]; rfl
  have o1 : b1.body.outputs = b.body.outputs ++ [⟨addr, totalIn b.body.inputs - totalOut b.body.outputs - (MinFee C b).1⟩] := by rw [← hb1]; rfl
  have f1' : b1.body.fee = (MinFee C b).1 := by rw [← hb1]; rfl
  have t1 : b1.body.ttl = b.body.ttl := by rw [← hb1]; rfl
  have m1 : b1.metadata = b.metadata := by rw [← hb1]; rfl
  have p1 : b1.protocol = b.protocol := by rw [← hb1]; rfl
  have w1 : feeWits b1 = [dummyWitness] := by rw [← hb1, feeWits_addChange]; exact hw
  -- sizes
  have ho : collect ((b1.body.outputs ++ [(⟨addr2, totalIn b1.body.inputs - totalOut b1.body.outputs - (MinFee C b1).1⟩ : TxOutput)]).map marshalOutput) = .ok outs := ho
  obtain ⟨as1, a2, ho1, ho2, ho3⟩ := (collect_append _ _ _).1 ho
  have ho1' := ho1
  rw [o1] at ho1'
  obtain ⟨as, a1, ho4, ho5, ho6⟩ := (collect_append _ _ _).1 ho1'
  obtain ⟨ab', hab', hal⟩ := output_length _ _ _ ho5
  rw [hab] at hab'
  injection hab' with hab'
  subst hab'
  have hasl : as.length = b.body.outputs.length := (collect_ok _ _ ho4).1
  have hasl1 : as1.length = b.body.outputs.length + 1 := by rw [ho6, List.length_append, hasl]; rfl
  have hfl : as1.flatten.length = as.flatten.length + (1 + ab.length + uintSize (totalIn b.body.inputs - totalOut b.body.outputs - (MinFee C b).1).toNat) := by
    rw [ho6, List.flatten_append, List.length_append]; simp [hal]
  rw [ho3, encArray_snoc_length as1 a2 (by omega), hfl, hasl1] at hs
  rw [show (AddChangeIfNeeded C b1 addr2).body.inputs = b1.body.inputs from rfl, show (AddChangeIfNeeded C b1 addr2).body.ttl = b1.body.ttl from rfl,
    show (AddChangeIfNeeded C b1 addr2).metadata = b1.metadata from rfl, i1, t1, m1] at hs
  obtain ⟨len1, len2, fee1, f1, f2, hl, hs1⟩ := minFee_size C h256' b m as hd hw ho4 (by omega) (total_ne b hI hlt)
  have u1 := uintSize_le b.body.fee.toNat
  have u2 := uintSize_le fee1.toNat
  have u3 := uintSize_le (MinFee C b).1.toNat
  have u4 := uintSize_le (totalIn b.body.inputs - totalOut b.body.outputs - 200000).toNat
  have u5 := uintSize_mono (show b.body.outputs.length + 1 ≤ b.body.outputs.length + 1 + 1 by omega)
  have M1 := hp.mul len1 (by omega)
  have M2 := hp.mul len2 (by omega)
  have hfx := hp.fixed
  have F1 := toNat_formula b.protocol.txFeeFixed b.protocol.txFeePerByte len1 (by omega) (by omega)
  have F2 := toNat_formula b.protocol.txFeeFixed b.protocol.txFeePerByte len2 (by omega) (by omega)
  rw [← f1] at F1
  rw [← f2] at F2
  rw [size5 fee1.toNat (by omega) (by omega)] at hs1
  -- the second fee
  have hO1 : totalOut b1.body.outputs = totalIn b.body.inputs - (MinFee C b).1 := by
    rw [o1, totalOut_snoc]
    apply UInt64.toNat_inj.1
    have := UInt64.toNat_lt (MinFee C b).1
    have := UInt64.toNat_lt (totalIn b.body.inputs)
    have := UInt64.toNat_lt (totalOut b.body.outputs)
    simp only [UInt64.toNat_add, UInt64.toNat_sub]
    omega
  have hne : totalIn b1.body.inputs ≠ totalOut b1.body.outputs := by
    rw [i1, hO1]
    intro h
    have h := congrArg UInt64.toNat h
    rw [UInt64.toNat_sub] at h
    have := UInt64.toNat_lt (MinFee C b).1
    have := UInt64.toNat_lt (totalIn b.body.inputs)
    omega
  obtain ⟨len3, len4, fee3, f3, f4, hl', hs3⟩ := minFee_size C h256' b1 m as1 (by rw [m1]; exact hd) w1 ho1 (by rw [o1, List.length_append, List.length_singleton]; omega) hne
  rw [i1, t1, m1, hfl, o1, List.length_append, List.length_singleton] at hs3
  rw [p1] at f3 f4
  have v1 := uintSize_le b1.body.fee.toNat
  have v2 := uintSize_le fee3.toNat
  have v4 := uintSize_le (totalIn b.body.inputs - totalOut (b.body.outputs ++ [⟨addr, totalIn b.body.inputs - totalOut b.body.outputs - (MinFee C b).1⟩]) - 200000).toNat
  have v5 := uintSize_le (totalIn b.body.inputs - totalOut b.body.outputs - (MinFee C b).1).toNat
  have M3 := hp.mul len3 (by omega)
  have M4 := hp.mul len4 (by omega)
  have F3 := toNat_formula b.protocol.txFeeFixed b.protocol.txFeePerByte len3 (by omega) (by omega)
  have F4 := toNat_formula b.protocol.txFeeFixed b.protocol.txFeePerByte len4 (by omega) (by omega)
  rw [← f3] at F3
  rw [← f4] at F4
  rw [size5 fee3.toNat (by omega) (by omega)] at hs3
  have hlen : len2 < len4 := by omega
  have := Nat.mul_lt_mul_of_pos_left hlen hp.perByte.1
  -- the balance
  have hb : sumOut b1.body.outputs + (MinFee C b1).1.toNat ≤ sumIn b1.body.inputs := hb
  rw [o1, sumOut_snoc, i1] at hb
  have hc : (totalIn b.body.inputs - totalOut b.body.outputs - (MinFee C b).1).toNat = 
      (2 ^ 64 - (MinFee C b).1.toNat + (2 ^ 64 - sumOut b.body.outputs + sumIn b.body.inputs) % 2 ^ 64) % 2 ^ 64 := by
    rw [UInt64.toNat_sub, UInt64.toNat_sub, totalIn_toNat, totalOut_toNat, Nat.mod_eq_of_lt hI,
      Nat.mod_eq_of_lt (show sumOut b.body.outputs < 2 ^ 64 by omega)]
  simp only at hb
  rw [hc] at hb
  have := UInt64.toNat_lt (MinFee C b).1
  omega

/-! ### The order before `AddChangeIfNeeded` -/

theorem marshalTx_det (t : Tx) (m : Bytes) (hd : ∀ k, marshalMetadata t.metadata k = .ok m) (k k' : Nat) : marshalTx t k = marshalTx t k' := by
  unfold marshalTx; rw [hd, hd]

theorem fee_det (C : Crypto) (l : LinearFee) (t : Tx) (m : Bytes) (hd : ∀ k, marshalMetadata t.metadata k = .ok m) (k k' : Nat) : fee C l t k = fee C l t k' := by
  unfold fee
  rw [calcAux_of C t m k (hd k), calcAux_of C t m k' (hd k')]
  simp only [Res.ok_bind]
  rw [marshalTx_det ⟨⟨t.body.inputs, t.body.outputs, t.body.fee, t.body.ttl, auxOf C t.metadata t.body.auxHash m⟩, t.witness, t.valid, t.metadata⟩ m hd (k + 1) (k' + 1)]

theorem feePasses_det (C : Crypto) (l : LinearFee) (t : Tx) (m : Bytes) (hd : ∀ k, marshalMetadata t.metadata k = .ok m) (k k' : Nat) :
    feePasses C l t k = feePasses C l t k' := by
  unfold feePasses
  rw [fee_det C l t m hd k k', afterAux_of C t m k (hd k), afterAux_of C t m k' (hd k')]
  dsimp only
  rw [fee_det C l ⟨⟨t.body.inputs, t.body.outputs, orZero (fee C l t k'), t.body.ttl, auxOf C t.metadata t.body.auxHash m⟩, t.witness, t.valid, t.metadata⟩ m hd (k + 2) (k' + 2)]

/-- What `MinFee` depends on. -/
theorem minFee_congr (C : Crypto) (b b' : Builder) (m : Bytes) (hd : ∀ k, marshalMetadata b.metadata k = .ok m)
    (h1 : b'.body = b.body) (h2 : b'.metadata = b.metadata) (h3 : b'.protocol = b.protocol) (h4 : feeWits b' = feeWits b) : (MinFee C b').1 = (MinFee C b).1 := by
  have hd' : ∀ k, marshalMetadata b'.metadata k = .ok m := by rw [h2]; exact hd
  show feePasses C _ (feeTx C b' b'.clock) (b'.clock + 1) = feePasses C _ (feeTx C b b.clock) (b.clock + 1)
  rw [feeTx_of C b m _ (hd _), feeTx_of C b' m _ (hd' _), h1, h2, h3, h4]
  rw [show feeOuts b' = feeOuts b by unfold feeOuts; rw [h1]]
  exact feePasses_det C _ _ m hd _ _

/-- What `Build` and `Bytes` do, for metadata that is always encoded the same. -/
theorem finish_iff (C : Crypto) (b : Builder) (bs m : Bytes) (hd : ∀ k, marshalMetadata b.metadata k = .ok m) :
    Finishes C b bs ↔ ∃ ws body, marshalBody { b.body with auxHash := auxOf C b.metadata b.body.auxHash m } = .ok body ∧
      bs = 0x84 :: (body ++ marshalWitness ws ++ encBool b.valid ++ m) ∧ witnessesOf C (C.blake256 body) b.xprvs = .ok ws := by
  refine ⟨fun h => finish_parts C b bs m h hd, ?_⟩
  rintro ⟨ws, body, h1, rfl, h3⟩
  have hc := calcAux_of C (tx b) m b.clock (hd _)
  have hc : calcAux C (tx b) b.clock = .ok { b.body with auxHash := auxOf C b.metadata b.body.auxHash m } := hc
  have hh : Transaction.hash C (tx b) b.clock = .ok (C.blake256 body) := by
    unfold Transaction.hash
    rw [hc]; simp only [Res.ok_bind]; rw [h1]; rfl
  have hB : ∃ h b', Build C b = (.ok h, b') := by
    unfold Build
    simp only [hh, h3]
    exact ⟨_, _, rfl⟩
  obtain ⟨h, b', e⟩ := hB
  obtain ⟨body', bb', ws', g1, g2, g3, g4, g5⟩ := build_ok C b b' h e
  have hv := view_build b b' h body' ws' g4 g5
  rw [hc] at g1
  injection g1 with g1
  rw [← g1, h1] at g2
  injection g2 with g2
  subst g2
  rw [h3] at g3
  injection g3 with g3
  subst g3
  refine ⟨h, b', 0, e, ?_⟩
  rw [hv]
  unfold Transaction.bytes
  rw [calcAux_of C _ m 0 (hd 0)]
  simp only [Res.ok_bind]
  rw [← g1]
  simp only [auxOf_idem]
  unfold marshalTx
  simp only [h1, Res.ok_bind]
  rw [hd]
  simp only [Res.ok_bind, encArray, List.flatten_cons, List.flatten_nil, List.append_nil, List.length_cons, List.length_nil]
  rw [show encHead 0x80 (UInt64.ofNat (0 + 1 + 1 + 1 + 1)) = [0x84] by decide]
  simp [pure]

/-- The calls that prepare a transaction, and `MinFee`. -/
def Prepares : Op → Prop
  | .addInputs _ | .addOutputs _ | .setTTL _ | .sign _ | .setMetadata _ | .minFee => True
  | _ => False

/-- The last metadata that was set. -/
def lastMetadata (md : Option Metadata) : List Op → Option Metadata
  | [] => md
  | .setMetadata m :: ops => lastMetadata m ops
  | _ :: ops => lastMetadata md ops

theorem feeWits_minFee (C : Crypto) (b : Builder) : feeWits (MinFee C b).2 = feeWits b := feeWits_addChange C b (.reward ⟨0, 0⟩ ⟨0, []⟩)

theorem run_prepares (C : Crypto) (ops : List Op) : ∀ b : Builder, (∀ op ∈ ops, Prepares op) →
    (run C b ops).body.auxHash = b.body.auxHash ∧ (run C b ops).valid = b.valid ∧ (run C b ops).metadata = lastMetadata b.metadata ops ∧
    feeWits (run C b ops) = feeWits b := by
  induction ops with
  | nil => intro b _; exact ⟨rfl, rfl, rfl, rfl⟩
  | cons op ops ih =>
    intro b hp
    obtain ⟨h1, h2, h3, h4⟩ := ih (step C b op) (fun o ho => hp o (List.mem_cons_of_mem _ ho))
    have hop := hp op List.mem_cons_self
    show (run C (step C b op) ops).body.auxHash = _ ∧ (run C (step C b op) ops).valid = _ ∧ (run C (step C b op) ops).metadata = _ ∧ feeWits (run C (step C b op) ops) = _
    rw [h1, h2, h3, h4]
    cases op with
    | minFee => exact ⟨rfl, rfl, rfl, feeWits_minFee C b⟩
    | build => exact hop.elim
    | addChange a => exact hop.elim
    | bytesOf h => exact hop.elim
    | _ => exact ⟨rfl, rfl, rfl, rfl⟩

theorem late_quiet (late : List Op) (hlate : ∀ op ∈ late, op = .minFee ∨ ∃ k, op = .sign k) :
    late.flatMap inputsOf = [] ∧ late.flatMap outputsOf = [] ∧ (∀ t, lastTTL t late = t) ∧ ∀ md, lastMetadata md late = md := by
  induction late with
  | nil => exact ⟨rfl, rfl, fun _ => rfl, fun _ => rfl⟩
  | cons op l ih =>
    obtain ⟨i1, i2, i3, i4⟩ := ih (fun o ho => hlate o (List.mem_cons_of_mem _ ho))
    rcases hlate op List.mem_cons_self with h | ⟨k, h⟩ <;> subst h <;> exact ⟨i1, i2, i3, i4⟩

/-- **C96 (partial): any order before.** The calls `AddInputs`, `AddOutputs`, `SetTTL`, `Sign`, setting metadata, `MinFee` may come in any order and number before `AddChangeIfNeeded`, and `Sign`
and `MinFee` also after: the result is that of the session that adds all inputs, then all outputs, and sets the last time to live and metadata. So C77 to C82 say whether the ledger accepts.
Missing: the other calls after `AddChangeIfNeeded`, which the ledger rejects, see above. -/
theorem C96_any_order_before_partial (C : Crypto) (p : Protocol) (ks : List Bytes) (ops late : List Op) (addr : Address) (b2 : Builder) (bs : Bytes)
    (hops : ∀ op ∈ ops, Prepares op) (hlate : ∀ op ∈ late, op = .minFee ∨ ∃ k, op = .sign k)
    (hmd : GoodMetadata (lastMetadata none ops))
    (h2 : b2 = run C (AddChangeIfNeeded C (run C (NewTxBuilder p ks) ops) addr) late) (hy : Finishes C b2 bs) :
    (Session.mk p (ks ++ ops.flatMap keysOf ++ late.flatMap keysOf) (ops.flatMap inputsOf) (ops.flatMap outputsOf) (lastTTL 0 ops) (lastMetadata none ops) addr).Yields
      C b2.body.fee.toNat bs := by
  obtain ⟨m, x, hm, -, -⟩ := goodMetadata_enc _ hmd
  generalize hs : Session.mk p (ks ++ ops.flatMap keysOf ++ late.flatMap keysOf) (ops.flatMap inputsOf) (ops.flatMap outputsOf) (lastTTL 0 ops) (lastMetadata none ops) addr = s
  generalize hb : run C (NewTxBuilder p ks) ops = b at h2
  -- before
  have hno : NoChange ops := by
    intro op hop a e
    have := hops op hop
    rw [e] at this
    exact this
  obtain ⟨a1, -, a3, a4, a5, a6⟩ := C29_history C ops (NewTxBuilder p ks)
  have a6 := a6 hno
  have a7 := run_fee C ops (NewTxBuilder p ks) hno
  obtain ⟨a8, a9, a10, a11⟩ := run_prepares C ops (NewTxBuilder p ks) hops
  rw [hb] at a1 a3 a4 a5 a6 a7 a8 a9 a10 a11
  have eb : b.body = s.builder.body := by
    have : b.body = ⟨b.body.inputs, b.body.outputs, b.body.fee, b.body.ttl, b.body.auxHash⟩ := rfl
    rw [this, a1, a3, a6, a7, a8, ← hs]
    rfl
  have em : b.metadata = s.metadata := by rw [a10, ← hs]; rfl
  have ef : (MinFee C b).1 = (MinFee C s.builder).1 :=
    minFee_congr C s.builder b m (by rw [← hs]; exact hm) eb em (by rw [a5, ← hs]; rfl) (by rw [a11, ← hs]; rfl)
  -- after
  have hno2 : NoChange late := by
    intro op hop a e
    rcases hlate op hop with h | ⟨k, h⟩ <;> rw [h] at e <;> cases e
  have hp2 : ∀ op ∈ late, Prepares op := by
    intro op hop
    rcases hlate op hop with h | ⟨k, h⟩ <;> rw [h] <;> exact trivial
  have hz := late_quiet late hlate
  obtain ⟨c1, -, c3, c4, c5, c6⟩ := C29_history C late (AddChangeIfNeeded C b addr)
  have c6 := c6 hno2
  have c7 := run_fee C late (AddChangeIfNeeded C b addr) hno2
  obtain ⟨c8, c9, c10, -⟩ := run_prepares C late (AddChangeIfNeeded C b addr) hp2
  rw [← h2] at c1 c3 c4 c5 c6 c7 c8 c9 c10
  rw [hz.1, List.append_nil] at c1
  rw [hz.2.1, List.append_nil] at c6
  rw [hz.2.2.1] at c3
  rw [hz.2.2.2] at c10
  have e2 : b2.body = (AddChangeIfNeeded C s.builder addr).body := by
    have : b2.body = ⟨b2.body.inputs, b2.body.outputs, b2.body.fee, b2.body.ttl, b2.body.auxHash⟩ := rfl
    rw [this, c1, c3, c6, c7, c8]
    show (AddChangeIfNeeded C b addr).body = _
    rw [addChange_eq, addChange_eq]
    dsimp only
    rw [eb, ef]
  have em2 : b2.metadata = s.metadata := by rw [c10]; exact em
  have hd2 : ∀ k, marshalMetadata b2.metadata k = .ok m := by rw [em2, ← hs]; exact hm
  have hk2 : b2.xprvs = s.keys := by
    rw [c4]
    show b.xprvs ++ _ = _
    rw [a4, ← hs]; rfl
  have hv2 : b2.valid = true := by rw [c9]; exact a9
  obtain ⟨ws, body, g1, g2, g3⟩ := (finish_iff C b2 bs m hd2).1 hy
  have hfin : Finishes C (AddChangeIfNeeded C s.builder addr) bs := by
    refine (finish_iff C _ bs m (by rw [← hs]; exact hm)).2 ⟨ws, body, ?_, ?_, ?_⟩
    · rw [← e2]
      show marshalBody { b2.body with auxHash := auxOf C s.metadata b2.body.auxHash m } = _
      rw [← em2]; exact g1
    · rw [g2, hv2]; rfl
    · show witnessesOf C _ s.keys = _
      rw [← hk2]; exact g3
  obtain ⟨h, b', k, r1, r2⟩ := hfin
  have hBuilt : Built C s.builder s.change [] (view b' h) bs := ⟨h, b', k, by rw [← hs] at r1 ⊢; exact r1, rfl, r2⟩
  refine ⟨view b' h, hBuilt, ?_⟩
  obtain ⟨hbody, -⟩ := built_parts C s.builder s.change [] (view b' h) bs m hBuilt (by rw [← hs]; exact hm)
  rw [hbody, e2]; rfl

/-! ### Examples -/

/-- `Build` and `Bytes` succeed when the addresses can be written and the keys are keys. -/
theorem finish_succeeds (H : Hashes) (hH : H.Ok) (blake256 : Bytes → Bytes) (b : Builder) (hmd : GoodMetadata b.metadata)
    (ho : ∀ o ∈ b.body.outputs, ∃ ab, marshalAddress o.address = .ok ab) (hk : ∀ k ∈ b.xprvs, k.length = 96 ∧ leNat (k.take 32) < 2 ^ 255) :
    ∃ bs, Finishes (packageCrypto H blake256) b bs := by
  obtain ⟨m, x, hm, -⟩ := goodMetadata_enc _ hmd
  obtain ⟨outs, hou⟩ := collect_total b.body.outputs ho
  have hmb : ∃ bb, marshalBody { b.body with auxHash := auxOf (packageCrypto H blake256) b.metadata b.body.auxHash m } = .ok bb := by
    unfold marshalBody
    simp only [hou, Res.ok_bind]
    exact ⟨_, rfl⟩
  obtain ⟨bb, hbb⟩ := hmb
  obtain ⟨ws, hws⟩ := witnessesOf_total H hH blake256 (blake256 bb) b.xprvs hk
  exact ⟨_, (finish_iff _ b _ m hm).2 ⟨ws, bb, hbb, rfl, hws⟩⟩

/-- The builder of the examples: 10 ada in, 5 ada out. -/
def orderBuilder : Builder := (sampleSession [sampleKey] 10000000 5000000 sampleAddr).builder

theorem order_fee (H : Hashes) (blake256 : Bytes → Bytes) : (MinFee (packageCrypto H blake256) orderBuilder).1 = 167877 := by
  have : (MinFee (packageCrypto H blake256) orderBuilder).1 = (MinFee sampleCrypto (sampleSession [] 10000000 5000000 sampleAddr).builder).1 := rfl
  rw [this]; decide +kernel

theorem order_change (H : Hashes) (blake256 : Bytes → Bytes) : (AddChangeIfNeeded (packageCrypto H blake256) orderBuilder sampleAddr).body =
    ⟨[⟨List.replicate 32 7, 0, 10000000⟩], [⟨.base MainNet goldenPayment goldenStake, 5000000⟩, ⟨sampleAddr, 4832123⟩], 167877, 0, []⟩ := by
  rw [addChange_eq, order_fee]; rfl

def orderUTxO : UTxO := fun r => if r.1 = List.replicate 32 7 then some ([], 10000000) else if r.1 = List.replicate 32 8 then some ([], 2000000) else none

theorem order_fits (b : Builder) (hi : ∀ i ∈ b.body.inputs, i.txHash.length = 32) (hin : b.body.inputs.length < 100) (hon : b.body.outputs.length < 100)
    (ho : ∀ o ∈ b.body.outputs, o.address = .base MainNet goldenPayment goldenStake ∨ o.address = sampleAddr)
    (hx : b.body.auxHash = []) (hk : b.xprvs.length < 100) (hm : GoodMetadata b.metadata) : BuilderFits b := by
  refine ⟨by omega, by omega, by omega, fun i h => by rw [hi i h]; decide, ?_, by rw [hx]; decide, hm⟩
  intro o h
  rcases ho o h with e | e <;> rw [e]
  · exact (by decide +kernel : (Addr.bytes (.base MainNet goldenPayment goldenStake)).length < 2 ^ 63)
  · exact (by decide +kernel : (Addr.bytes sampleAddr).length < 2 ^ 63)

theorem order_marshals (o : TxOutput) (ho : o.address = .base MainNet goldenPayment goldenStake ∨ o.address = sampleAddr) : ∃ ab, marshalAddress o.address = .ok ab := by
  rcases ho with e | e <;> rw [e] <;> exact ⟨_, rfl⟩

/-- Any builder with few inputs, outputs to the two addresses, and the sample key, finishes and fits. -/
theorem order_ok (H : Hashes) (hH : H.Ok) (blake256 : Bytes → Bytes) (b : Builder) (body : TxBody) (hb : b.body = body) (hi : ∀ i ∈ body.inputs, i.txHash.length = 32)
    (hin : body.inputs.length < 100) (hon : body.outputs.length < 100)
    (ho : ∀ o ∈ body.outputs, o.address = .base MainNet goldenPayment goldenStake ∨ o.address = sampleAddr)
    (hx : body.auxHash = []) (hk : b.xprvs = [sampleKey]) (hm : GoodMetadata b.metadata) : BuilderFits b ∧ ∃ bs, Finishes (packageCrypto H blake256) b bs := by
  subst hb
  exact ⟨order_fits b hi hin hon ho hx (by rw [hk]; decide) hm, finish_succeeds H hH blake256 b hm (fun o h => order_marshals o (ho o h))
    (by intro k h; rw [hk] at h; rw [List.mem_singleton.1 h]; exact sampleKey_ok)⟩

/-- C96, the first four theorems: no `AddChangeIfNeeded`; another output, another input after it. -/
example (H : Hashes) (hH : H.Ok) (blake256 : Bytes → Bytes) :
    (∃ (p : Protocol) (ops : List Op) (bs : Bytes), NoChange ops ∧ ops.length = 2 ∧ BuilderFits (run (packageCrypto H blake256) (NewTxBuilder p [sampleKey]) ops) ∧
      Finishes (packageCrypto H blake256) (run (packageCrypto H blake256) (NewTxBuilder p [sampleKey]) ops) bs) ∧
    (∃ (l : List TxOutput) (bs : Bytes), BuilderFits (AddOutputs (AddChangeIfNeeded (packageCrypto H blake256) orderBuilder sampleAddr) l) ∧
      Finishes (packageCrypto H blake256) (AddOutputs (AddChangeIfNeeded (packageCrypto H blake256) orderBuilder sampleAddr) l) bs ∧ 0 < sumOut l) ∧
    (∃ (l : List TxInput) (bs : Bytes), BuilderFits (AddInputs (AddChangeIfNeeded (packageCrypto H blake256) orderBuilder sampleAddr) l) ∧
      Finishes (packageCrypto H blake256) (AddInputs (AddChangeIfNeeded (packageCrypto H blake256) orderBuilder sampleAddr) l) bs ∧ 0 < sumIn l ∧
      StatedRight orderUTxO (orderBuilder.body.inputs ++ l) ∧ sumIn (orderBuilder.body.inputs ++ l) < 2 ^ 64) := by
  refine ⟨?_, ?_, ?_⟩
  · let ops : List Op := [.addOutputs [⟨.base MainNet goldenPayment goldenStake, 5000000⟩], .addInputs [⟨List.replicate 32 7, 0, 10000000⟩]]
    obtain ⟨h1, bs, h2⟩ := order_ok H hH blake256 (run (packageCrypto H blake256) (NewTxBuilder ⟨44, 155381, 16384, 1000000⟩ [sampleKey]) ops) _ rfl
      (by intro i h; rw [List.mem_singleton.1 h]; decide) (by decide : 1 < 100) (by decide : 1 < 100) (by intro o h; rw [List.mem_singleton.1 h]; exact .inl rfl) rfl rfl (.inl rfl)
    refine ⟨_, ops, bs, ?_, rfl, h1, h2⟩
    intro op hop a e
    rcases List.mem_cons.1 hop with h | h
    · rw [h] at e; cases e
    · rw [List.mem_singleton.1 h] at e; cases e
  · let l : List TxOutput := [⟨sampleAddr, 1000000⟩]
    obtain ⟨h1, bs, h2⟩ := order_ok H hH blake256 (AddOutputs (AddChangeIfNeeded (packageCrypto H blake256) orderBuilder sampleAddr) l)
      ⟨[⟨List.replicate 32 7, 0, 10000000⟩], [⟨.base MainNet goldenPayment goldenStake, 5000000⟩, ⟨sampleAddr, 4832123⟩, ⟨sampleAddr, 1000000⟩], 167877, 0, []⟩
      (by unfold AddOutputs; simp only [order_change]; rfl)
      (by intro i h; rw [List.mem_singleton.1 h]; decide) (by decide : 1 < 100) (by decide : 3 < 100)
      (by
        intro o h
        simp only [List.mem_cons, List.not_mem_nil, or_false] at h
        rcases h with h | h | h <;> rw [h]
        · exact .inl rfl
        · exact .inr rfl
        · exact .inr rfl) rfl rfl (.inl rfl)
    exact ⟨l, bs, h1, h2, by decide⟩
  · let l : List TxInput := [⟨List.replicate 32 8, 0, 2000000⟩]
    obtain ⟨h1, bs, h2⟩ := order_ok H hH blake256 (AddInputs (AddChangeIfNeeded (packageCrypto H blake256) orderBuilder sampleAddr) l)
      ⟨[⟨List.replicate 32 7, 0, 10000000⟩, ⟨List.replicate 32 8, 0, 2000000⟩], [⟨.base MainNet goldenPayment goldenStake, 5000000⟩, ⟨sampleAddr, 4832123⟩], 167877, 0, []⟩
      (by unfold AddInputs; simp only [order_change]; rfl)
      (by
        intro i h
        simp only [List.mem_cons, List.not_mem_nil, or_false] at h
        rcases h with h | h <;> rw [h] <;> rfl) (by decide : 2 < 100) (by decide : 2 < 100)
      (by
        intro o h
        simp only [List.mem_cons, List.not_mem_nil, or_false] at h
        rcases h with h | h <;> rw [h]
        · exact .inl rfl
        · exact .inr rfl) rfl rfl (.inl rfl)
    refine ⟨l, bs, h1, h2, by decide, ⟨?_, by decide⟩, by decide⟩
    intro i h
    have h : i ∈ [(⟨List.replicate 32 7, 0, 10000000⟩ : TxInput), ⟨List.replicate 32 8, 0, 2000000⟩] := h
    simp only [List.mem_cons, List.not_mem_nil, or_false] at h
    rcases h with h | h <;> rw [h] <;> exact ⟨_, rfl⟩

/-- C96: `SetTTL`, metadata, `AddChangeIfNeeded` after `AddChangeIfNeeded`. -/
example (H : Hashes) (hH : H.Ok) (blake256 : Bytes → Bytes) (h256 : ∀ m, (blake256 m).length = 32) :
    feeWits orderBuilder = [dummyWitness] ∧ UsualFees orderBuilder.protocol ∧ (MinFee (packageCrypto H blake256) orderBuilder).1.toNat ≤ 200000 ∧
      sumOut orderBuilder.body.outputs + 200000 ≤ sumIn orderBuilder.body.inputs ∧ marshalAddress sampleAddr = .ok sampleAddrBytes ∧ 59 ≤ sampleAddrBytes.length ∧
    (∃ bs, bs.length ≤ 16384 ∧ BuilderFits (SetTTL (AddChangeIfNeeded (packageCrypto H blake256) orderBuilder sampleAddr) 1000) ∧
      Finishes (packageCrypto H blake256) (SetTTL (AddChangeIfNeeded (packageCrypto H blake256) orderBuilder sampleAddr) 1000) bs) ∧
    (∃ d bs, bs.length ≤ 16384 ∧ BuilderFits (setMetadata (AddChangeIfNeeded (packageCrypto H blake256) orderBuilder sampleAddr) (some d)) ∧
      Finishes (packageCrypto H blake256) (setMetadata (AddChangeIfNeeded (packageCrypto H blake256) orderBuilder sampleAddr) (some d)) bs) ∧
    ∃ bs, bs.length ≤ 16384 ∧ BuilderFits (AddChangeIfNeeded (packageCrypto H blake256) (AddChangeIfNeeded (packageCrypto H blake256) orderBuilder sampleAddr) sampleAddr) ∧
      Finishes (packageCrypto H blake256) (AddChangeIfNeeded (packageCrypto H blake256) (AddChangeIfNeeded (packageCrypto H blake256) orderBuilder sampleAddr) sampleAddr) bs := by
  have small : ∀ (b : Builder) (bs m : Bytes), Finishes (packageCrypto H blake256) b bs → (∀ k, marshalMetadata b.metadata k = .ok m) → m.length ≤ 100 →
      (b.metadata = none → b.body.auxHash = []) → b.xprvs = [sampleKey] → b.body.inputs = [⟨List.replicate 32 7, 0, 10000000⟩] →
      (∃ l : List UInt64, l.length ≤ 3 ∧ b.body.outputs = ⟨.base MainNet goldenPayment goldenStake, 5000000⟩ :: l.map fun a => ⟨sampleAddr, a⟩) → bs.length ≤ 16384 := by
    intro b bs m hy hd hm hx hk hi ⟨l, hl, ho⟩
    obtain ⟨outs, h1, h2⟩ := finish_size _ h256 (package_key_length H blake256) (package_sig_length H hH blake256) b bs m hy hd hx (by rw [hk]; decide)
    have hone : ∀ a, ∃ x, marshalOutput ⟨sampleAddr, a⟩ = .ok x ∧ x.length ≤ 69 := by
      intro a
      obtain ⟨x, hx⟩ : ∃ x, marshalOutput ⟨sampleAddr, a⟩ = .ok x := ⟨_, rfl⟩
      obtain ⟨ab, h3, h4⟩ := output_length _ _ _ hx
      have h5 : marshalAddress sampleAddr = .ok sampleAddrBytes := rfl
      rw [h5] at h3
      injection h3 with h3
      have : sampleAddrBytes.length = 59 := by decide +kernel
      have := uintSize_le a.toNat
      exact ⟨x, hx, by rw [h4, ← h3]; omega⟩
    have hall : ∀ l : List UInt64, ∃ xs, collect ((l.map fun a => (⟨sampleAddr, a⟩ : TxOutput)).map marshalOutput) = .ok xs ∧ xs.flatten.length ≤ 69 * l.length ∧ xs.length = l.length := by
      intro l
      induction l with
      | nil => exact ⟨[], rfl, by decide, rfl⟩
      | cons a l ih =>
        obtain ⟨xs, i1, i2, i3⟩ := ih
        obtain ⟨x, j1, j2⟩ := hone a
        refine ⟨x :: xs, ?_, ?_, by simp [i3]⟩
        · simp only [List.map_cons, collect, j1, i1]; rfl
        · simp only [List.flatten_cons, List.length_append, List.length_cons]; omega
    obtain ⟨xs, j1, j2, j3⟩ := hall l
    have hfirst : ∃ y, marshalOutput ⟨.base MainNet goldenPayment goldenStake, 5000000⟩ = .ok y ∧ y.length ≤ 69 := by
      refine ⟨_, rfl, by decide +kernel⟩
    obtain ⟨y, y1, y2⟩ := hfirst
    have : outs = y :: xs := by
      rw [ho, List.map_cons] at h1
      simp only [collect, y1, j1, Res.ok_bind] at h1
      injection h1 with h1
      exact h1.symm
    have hea : (encArray outs).length ≤ 9 + 69 + 69 * l.length := by
      rw [this]
      have := uintSize_le (UInt64.ofNat (y :: xs).length).toNat
      simp only [encArray, List.length_append, encHead_length, List.flatten_cons]
      omega
    have u1 := uintSize_le b.body.fee.toNat
    have u2 : ttlSize b.body.ttl ≤ 10 := by unfold ttlSize; have := uintSize_le b.body.ttl.toNat; split <;> omega
    have u3 : metadataSize b.metadata m ≤ 135 := by unfold metadataSize auxSize; split <;> omega
    rw [hi, hk, show wsize [sampleKey].length = 104 by decide, show (encArray ([(⟨List.replicate 32 7, 0, 10000000⟩ : TxInput)].map marshalInput)).length = 37 by decide +kernel] at h2
    omega
  have hc := order_change H blake256
  refine ⟨rfl, ⟨⟨by decide, by decide⟩, ⟨by decide, by decide⟩⟩, by rw [order_fee]; decide, by decide, rfl, by decide +kernel, ?_, ?_, ?_⟩
  · obtain ⟨h1, bs, h2⟩ := order_ok H hH blake256 (SetTTL (AddChangeIfNeeded (packageCrypto H blake256) orderBuilder sampleAddr) 1000)
      ⟨[⟨List.replicate 32 7, 0, 10000000⟩], [⟨.base MainNet goldenPayment goldenStake, 5000000⟩, ⟨sampleAddr, 4832123⟩], 167877, 1000, []⟩
      (by unfold SetTTL; simp only [hc])
      (by intro i h; rw [List.mem_singleton.1 h]; decide) (by decide : 1 < 100) (by decide : 2 < 100)
      (by
        intro o h
        simp only [List.mem_cons, List.not_mem_nil, or_false] at h
        rcases h with h | h <;> rw [h]
        · exact .inl rfl
        · exact .inr rfl) rfl rfl (.inl rfl)
    refine ⟨bs, small _ bs encNil h2 (fun _ => rfl) (by decide) (fun _ => rfl) rfl rfl ⟨[4832123], by decide, ?_⟩, h1, h2⟩
    show (AddChangeIfNeeded (packageCrypto H blake256) orderBuilder sampleAddr).body.outputs = _
    rw [hc]; rfl
  · let d : Metadata := ⟨fun _ => .ok [0xa0]⟩
    have hg : GoodMetadata (some d) := .inr ⟨d, [0xa0], .map [], rfl, fun _ => rfl, rfl, rfl⟩
    obtain ⟨h1, bs, h2⟩ := order_ok H hH blake256 (setMetadata (AddChangeIfNeeded (packageCrypto H blake256) orderBuilder sampleAddr) (some d))
      ⟨[⟨List.replicate 32 7, 0, 10000000⟩], [⟨.base MainNet goldenPayment goldenStake, 5000000⟩, ⟨sampleAddr, 4832123⟩], 167877, 0, []⟩
      (by unfold setMetadata; simp only [hc])
      (by intro i h; rw [List.mem_singleton.1 h]; decide) (by decide : 1 < 100) (by decide : 2 < 100)
      (by
        intro o h
        simp only [List.mem_cons, List.not_mem_nil, or_false] at h
        rcases h with h | h <;> rw [h]
        · exact .inl rfl
        · exact .inr rfl) rfl rfl hg
    refine ⟨d, bs, small _ bs [0xa0] h2 (fun _ => rfl) (by decide) nofun rfl rfl ⟨[4832123], by decide, ?_⟩, h1, h2⟩
    show (AddChangeIfNeeded (packageCrypto H blake256) orderBuilder sampleAddr).body.outputs = _
    rw [hc]; rfl
  · generalize hb1 : AddChangeIfNeeded (packageCrypto H blake256) orderBuilder sampleAddr = b1 at hc ⊢
    have hk1 : b1.xprvs = [sampleKey] := by rw [← hb1]; rfl
    have hm1 : b1.metadata = none := by rw [← hb1]; rfl
    obtain ⟨f, ch, he⟩ : ∃ f ch, (AddChangeIfNeeded (packageCrypto H blake256) b1 sampleAddr).body =
        ⟨[⟨List.replicate 32 7, 0, 10000000⟩], [⟨.base MainNet goldenPayment goldenStake, 5000000⟩, ⟨sampleAddr, 4832123⟩, ⟨sampleAddr, ch⟩], f, 0, []⟩ := by
      rw [addChange_eq]
      dsimp only
      rw [hc]
      exact ⟨_, _, rfl⟩
    obtain ⟨h1, bs, h2⟩ := order_ok H hH blake256 (AddChangeIfNeeded (packageCrypto H blake256) b1 sampleAddr) _ he
      (by intro i h; rw [List.mem_singleton.1 h]; decide) (by decide : 1 < 100) (by decide : 3 < 100)
      (by
        intro o h
        simp only [List.mem_cons, List.not_mem_nil, or_false] at h
        rcases h with h | h | h <;> rw [h]
        · exact .inl rfl
        · exact .inr rfl
        · exact .inr rfl) rfl hk1 (.inl hm1)
    refine ⟨bs, small _ bs encNil h2 (fun k => by show marshalMetadata b1.metadata k = _; rw [hm1]; rfl) (by decide) (fun _ => by rw [he]) hk1 (by rw [he]) ⟨[4832123, ch], (by decide : 2 ≤ 3), by rw [he]; rfl⟩, h1, h2⟩

/-- C96, the last theorem: outputs first, the fee asked for, then the inputs; the key is given at the end. -/
example (H : Hashes) (hH : H.Ok) (blake256 : Bytes → Bytes) :
    ∃ (p : Protocol) (ops late : List Op) (bs : Bytes), (∀ op ∈ ops, Prepares op) ∧ (∀ op ∈ late, op = .minFee ∨ ∃ k, op = .sign k) ∧ GoodMetadata (lastMetadata none ops) ∧
      ops.length = 4 ∧ late.length = 2 ∧
      Finishes (packageCrypto H blake256) (run (packageCrypto H blake256) (AddChangeIfNeeded (packageCrypto H blake256) (run (packageCrypto H blake256) (NewTxBuilder p []) ops) sampleAddr) late) bs := by
  let ops : List Op := [.addOutputs [⟨.base MainNet goldenPayment goldenStake, 5000000⟩], .minFee, .setTTL 1000, .addInputs [⟨List.replicate 32 7, 0, 10000000⟩]]
  let late : List Op := [.minFee, .sign sampleKey]
  obtain ⟨bs, h⟩ := finish_succeeds H hH blake256 
    (run (packageCrypto H blake256) (AddChangeIfNeeded (packageCrypto H blake256) (run (packageCrypto H blake256) (NewTxBuilder ⟨44, 155381, 16384, 1000000⟩ []) ops) sampleAddr) late)
    (.inl rfl)
    (by
      intro o h
      rcases List.mem_cons.1 (show o ∈ [(⟨.base MainNet goldenPayment goldenStake, 5000000⟩ : TxOutput), ⟨sampleAddr, _⟩] from h) with h | h
      · rw [h]; exact order_marshals _ (.inl rfl)
      · rw [List.mem_singleton.1 h]; exact order_marshals _ (.inr rfl))
    (by intro k h; rw [List.mem_singleton.1 (show k ∈ [sampleKey] from h)]; exact sampleKey_ok)
  refine ⟨_, ops, late, bs, ?_, ?_, .inl rfl, rfl, rfl, h⟩
  · intro op hop
    simp only [ops, List.mem_cons, List.not_mem_nil, or_false] at hop
    rcases hop with h | h | h | h <;> rw [h] <;> exact trivial
  · intro op hop
    simp only [late, List.mem_cons, List.not_mem_nil, or_false] at hop
    rcases hop with h | h
    · exact .inl h
    · exact .inr ⟨_, h⟩

end Cardano.Props
