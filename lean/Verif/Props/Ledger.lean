import Verif.Ledger.Read
import Verif.Props.Wallet
import Verif.Props.TxSamples
/-!
# Properties C77 to C82: does the ledger accept what the builder builds?
-/
set_option autoImplicit false

namespace Cardano.Props
open Cbor TxSpec Transaction TxBuilder Addr Bip32
open Ledger (read seen refOf outOf witOf Env UTxO OutputAddress readAux)

/-! ### Facts about the built transaction -/

/-- The parts of a built transaction and of its bytes. -/
theorem built_parts (C : Crypto) (b : Builder) (addr : Address) (keys : List Bytes) (t : Tx) (bs m : Bytes)
    (hb : Built C b addr keys t bs) (hd : ∀ k, marshalMetadata b.metadata k = .ok m) :
    t.body = { b.body with
        fee := (MinFee C b).1
        outputs := b.body.outputs ++ [⟨addr, totalIn b.body.inputs - totalOut b.body.outputs - (MinFee C b).1⟩]
        auxHash := auxOf C b.metadata b.body.auxHash m } ∧
    t.valid = b.valid ∧
    ∃ body, marshalBody t.body = .ok body ∧ bs = 0x84 :: (body ++ marshalWitness t.witness ++ encBool t.valid ++ m) ∧
      witnessesOf C (C.blake256 body) (b.xprvs ++ keys) = .ok t.witness := by
  obtain ⟨h, b', k, e, rfl, eb⟩ := hb.run
  rw [foldl_sign] at e
  generalize hb1 : { (AddChangeIfNeeded C b addr) with xprvs := (AddChangeIfNeeded C b addr).xprvs ++ keys } = b1 at e
  have hm1 : b1.metadata = b.metadata := by rw [← hb1]; rfl
  have hv1 : b1.valid = b.valid := by rw [← hb1]; rfl
  have hbody1 : b1.body = { b.body with
        fee := (MinFee C b).1
        outputs := b.body.outputs ++ [⟨addr, totalIn b.body.inputs - totalOut b.body.outputs - (MinFee C b).1⟩] } := by
    rw [← hb1]; rfl
  have hk1 : b1.xprvs = b.xprvs ++ keys := by rw [← hb1]; rfl
  obtain ⟨body, bb, ws, h1, h2, h3, h4, h5⟩ := build_ok C b1 b' h e
  have hv := view_build b1 b' h body ws h4 h5
  have hc : calcAux C (tx b1) b1.clock = .ok { b1.body with auxHash := auxOf C b.metadata b1.body.auxHash m } := by
    have := calcAux_of C (tx b1) m b1.clock (by show marshalMetadata b1.metadata _ = _; rw [hm1]; exact hd _)
    rw [this]
    show Res.ok { b1.body with auxHash := auxOf C b1.metadata b1.body.auxHash m } = _
    rw [hm1]
  rw [hc] at h1
  injection h1 with h1
  rw [hv, hm1] at eb
  have hc2 : calcAux C ⟨body, ws, b1.valid, b.metadata⟩ k = .ok body := by
    rw [calcAux_of C _ m k (hd k), ← h1]
    simp only [auxOf_idem]
  obtain ⟨body', e1, eb⟩ := bind_ok eb
  rw [hc2] at e1
  injection e1 with e1
  subst e1
  obtain ⟨bb', m', g1, g2, g3⟩ := marshalTx_parts _ _ _ eb
  have g1 : marshalBody body = .ok bb' := g1
  have g2 : marshalMetadata b.metadata _ = .ok m' := g2
  rw [h2] at g1
  injection g1 with g1
  subst g1
  rw [hd] at g2
  injection g2 with g2
  subst g2
  rw [hv]
  refine ⟨?_, hv1, bb, h2, g3, by rw [← hk1]; exact h3⟩
  show body = _
  rw [← h1, hbody1]

theorem witnessesOf_lengths (C : Crypto) (hpk : ∀ k pk, C.publicKey k = .ok pk → pk.length = 32) (hsg : ∀ k msg s, C.sign k msg = .ok s → s.length = 64)
    (h : Bytes) (ks : List Bytes) : ∀ ws, witnessesOf C h ks = .ok ws → ws.length = ks.length ∧ ∀ w ∈ ws, w.vkey.length = 32 ∧ w.signature.length = 64 := by
  induction ks with
  | nil => intro ws e; injection e with e; subst e; exact ⟨rfl, nofun⟩
  | cons k ks ih =>
    intro ws e
    obtain ⟨w, e1, e⟩ := bind_ok e
    obtain ⟨ws', e2, e⟩ := bind_ok e
    injection e with e
    subst e
    obtain ⟨i1, i2⟩ := ih ws' e2
    refine ⟨by simp [i1], fun x hx => ?_⟩
    rcases List.mem_cons.1 hx with rfl | hx
    · obtain ⟨pk, p1, e1⟩ := bind_ok e1
      obtain ⟨sg, p2, e1⟩ := bind_ok e1
      injection e1 with e1
      subst e1
      exact ⟨hpk _ _ p1, hsg _ _ _ p2⟩
    · exact i2 x hx

theorem package_key_length (H : Hashes) (bl : Bytes → Bytes) (k pk : Bytes) (h : (packageCrypto H bl).publicKey k = .ok pk) : pk.length = 32 := by
  have h : (Public makePublicKey k >>= PublicKey) = .ok pk := h
  obtain ⟨x, -, h⟩ := bind_ok h
  unfold PublicKey at h
  split at h
  · cases h
  · injection h with h; rw [← h, List.length_take]; omega

section
open Ed
attribute [local irreducible] GeScalarMultBase Ext.ToBytes ScReduce ScMulAdd B

theorem package_sig_length (H : Hashes) (hH : H.Ok) (bl : Bytes → Bytes) (k msg s : Bytes) (h : (packageCrypto H bl).sign k msg = .ok s) : s.length = 64 := by
  have h : Bip32.Sign H k msg = .ok s := h
  unfold Bip32.Sign at h
  split at h
  · cases h
  · injection h with h
    rw [← h]
    obtain ⟨n1, n2⟩ := C38_reduce (H.sha512 ((k.drop 32).take 32 ++ msg)) (hH.sha512 _)
    generalize ScReduce (H.sha512 ((k.drop 32).take 32 ++ msg)) = nonce at *
    have hn : leNat nonce < 2 ^ 255 := by
      rw [n2]
      exact Nat.lt_trans (Nat.mod_lt _ (by decide +kernel)) (by decide +kernel : L < 2 ^ 255)
    have hR : Encodes (GeScalarMultBase nonce).ToBytes (leNat nonce • B) := (encodes_iff _ _).2 (Ext.toBytes_eq (GeScalarMultBase_rep n1 hn))
    have := hR.size
    rw [List.length_append, ScMulAdd_length, List.length_take, List.length_append, this]
    omega

end

/-! ### C77 -/

/-- What a user asks of the builder: `NewTxBuilder(protocol, {key})`, `AddInputs`, `AddOutputs`, `SetTTL` (0: not called), metadata, then
`AddChangeIfNeeded(change)`, `Build`, `Bytes`. -/
structure Session where
  protocol : Protocol
  keys : List Bytes
  inputs : List TxInput
  outputs : List TxOutput
  ttl : UInt32
  metadata : Option Metadata
  change : Address

/-- The builder before `AddChangeIfNeeded`. -/
def Session.builder (s : Session) : Builder :=
  setMetadata (SetTTL (AddOutputs (AddInputs (NewTxBuilder s.protocol s.keys) s.inputs) s.outputs) s.ttl) s.metadata

/-- The calls succeed and return the bytes `bs` of a transaction with fee `fee`. -/
def Session.Yields (s : Session) (C : Crypto) (fee : Nat) (bs : Bytes) : Prop :=
  ∃ t, Built C s.builder s.change [] t bs ∧ t.body.fee.toNat = fee

/-- The cryptography of the ledger, with the same hash functions as the package. -/
def ledgerCrypto (H : Hashes) (blake224 blake256 : Bytes → Bytes) : Ledger.Crypto := ⟨blake224, blake256, Valid H.sha512⟩

/-- The ledger's parameters are the ones given to the builder. -/
def envOf (p : Protocol) (network slot : Nat) : Env :=
  ⟨p.txFeePerByte.toNat, p.txFeeFixed.toNat, p.maxTxSize.toNat, p.minUTXOValue.toNat, network, slot⟩

/-- An address of the given network that can receive funds. -/
def Receives (network : Nat) (a : Bytes) : Prop := OutputAddress a ∧ ∃ h rest, a = h :: rest ∧ h.toNat % 16 = network

/-- The metadata is absent, or always encoded to the same auxiliary data. -/
def GoodMetadata (md : Option Metadata) : Prop :=
  md = none ∨ ∃ d m x, md = some d ∧ (∀ k, d.enc k = .ok m) ∧ parse m = some x ∧ readAux x m = some (some m)

/-- The unspent outputs are as the inputs say, and belong to the key `pk`. -/
structure Agrees (blake224 : Bytes → Bytes) (u : UTxO) (pks : List Bytes) (inputs : List TxInput) : Prop where
  ids : ∀ i ∈ inputs, i.txHash.length = 32
  amounts : ∀ i ∈ inputs, ∃ a, u (refOf i) = some (a, i.amount.toNat) ∧ ∃ pk ∈ pks, PaysTo blake224 a pk

theorem goodMetadata_enc (md : Option Metadata) (h : GoodMetadata md) :
    ∃ m x, (∀ k, marshalMetadata md k = .ok m) ∧ parse m = some x ∧
      (md = none → m = encNil ∧ readAux x m = some none) ∧ (md ≠ none → readAux x m = some (some m)) := by
  rcases h with rfl | ⟨d, m, x, rfl, h1, h2, h3⟩
  · exact ⟨encNil, .simple 22, fun _ => rfl, rfl, fun _ => ⟨rfl, rfl⟩, fun h => absurd rfl h⟩
  · exact ⟨m, x, h1, h2, nofun, fun _ => h3⟩

theorem outputAddress_fits (a : Address) (h : OutputAddress (Addr.bytes a)) : AddressFits a := by
  have hl : (Addr.bytes a).length < 2 ^ 63 := by
    obtain ⟨x, rest, e, hc⟩ := h
    rw [e, List.length_cons]
    omega
  cases a with
  | byron b =>
    have := Ledger.addressItem_bytes _ h
    cases this
  | base _ _ _ => exact hl
  | enterprise _ _ => exact hl
  | pointer _ _ _ => exact hl
  | reward _ _ => exact hl

theorem sum_map_outOf (l : List TxOutput) : ((l.map outOf).map (·.2)).sum = sumOut l := by
  unfold sumOut
  rw [List.map_map]; rfl

theorem amounts_sum (u : UTxO) (l : List TxInput) (h : ∀ i ∈ l, ∃ a, u (refOf i) = some (a, i.amount.toNat)) :
    ((l.map refOf).map u.amount).sum = sumIn l := by
  unfold sumIn
  rw [List.map_map]
  congr 1
  apply List.map_congr_left
  intro i hi
  obtain ⟨a, ha⟩ := h i hi
  show ((u (refOf i)).map _).getD 0 = _
  rw [ha]; rfl

/-- Provisos of the fee estimate (C20): the parameters are of the order of magnitude of those in use, and the change amount does not take more bytes than the
placeholder. -/
structure FeeProvisos (s : Session) (fee : Nat) : Prop where
  fixed : 65536 ≤ s.protocol.txFeeFixed.toNat ∧ s.protocol.txFeeFixed.toNat < 2 ^ 31
  perByte : s.protocol.txFeePerByte.toNat < 2 ^ 16
  maxSize : s.protocol.maxTxSize.toNat ≤ 16384
  width : sumIn s.inputs - sumOut s.outputs < 200000 ∨
    uintSize (sumIn s.inputs - sumOut s.outputs - fee) ≤ uintSize (sumIn s.inputs - sumOut s.outputs - 200000)
  changeSize : (Addr.bytes s.change).length ≤ 57
  minimum : 0 < s.protocol.minUTXOValue.toNat

/-- **C77 (partial).** If a user with one key spends distinct unspent outputs of that key, stated correctly, to addresses of the network and with amounts that the
ledger allows, the total covers outputs, fee and a change the ledger allows, the bytes are not too many, and the provisos of the fee estimate
hold, then the ledger accepts the bytes; it sees the inputs and outputs that were asked for, and the change as last output. Missing: each proviso
that concerns the work of the builder is needed, see the next theorems. -/
theorem C77_ledger_accepts_partial (H : Hashes) (hH : H.Ok) (blake224 blake256 : Bytes → Bytes) (h256 : ∀ m, (blake256 m).length = 32)
    (s : Session) (key pk : Bytes) (u : UTxO) (network slot fee : Nat) (bs : Bytes)
    (hkeys : s.keys = [key]) (hk : key.length = 96 ∧ leNat (key.take 32) < 2 ^ 255) (hpk : (packageCrypto H blake256).publicKey key = .ok pk)
    (hu : Agrees blake224 u [pk] s.inputs) (hne : s.inputs ≠ []) (hdis : (s.inputs.map refOf).Nodup) (hlen : s.inputs.length < 2 ^ 63)
    (hout : ∀ o ∈ s.outputs, Receives network (Addr.bytes o.address) ∧ s.protocol.minUTXOValue.toNat ≤ o.amount.toNat) (hol : s.outputs.length < 2 ^ 32)
    (hch : Receives network (Addr.bytes s.change)) (hmd : GoodMetadata s.metadata) (httl : s.ttl ≠ 0 → slot < s.ttl.toNat)
    (hy : s.Yields (packageCrypto H blake256) fee bs) (hp : FeeProvisos s fee)
    (hI : sumIn s.inputs < 2 ^ 64)
    (hcover : sumOut s.outputs + fee + s.protocol.minUTXOValue.toNat ≤ sumIn s.inputs)
    (hsize : bs.length ≤ s.protocol.maxTxSize.toNat) :
    ∃ v, read bs = some v ∧ Ledger.Accepts (ledgerCrypto H blake224 blake256) (envOf s.protocol network slot) u v ∧
      v.inputs = s.inputs.map refOf ∧
      v.outputs = s.outputs.map outOf ++ [(Addr.bytes s.change, sumIn s.inputs - sumOut s.outputs - fee)] ∧ v.fee = fee ∧
      (v.ttl = if s.ttl = 0 then none else some s.ttl.toNat) ∧
      (s.metadata = none ∧ v.aux = none ∨ ∃ d m, s.metadata = some d ∧ (∀ k, d.enc k = .ok m) ∧ v.aux = some m) := by
  obtain ⟨t, hb, rfl⟩ := hy
  obtain ⟨m, x, hm, hx, hn, hs⟩ := goodMetadata_enc _ hmd
  obtain ⟨hbody, hval, body, h1, h2, h3⟩ := built_parts (packageCrypto H blake256) s.builder s.change [] t bs m hb hm
  have hfee : t.body.fee = (MinFee (packageCrypto H blake256) s.builder).1 := by rw [hbody]
  have eI : s.builder.body.inputs = s.inputs := by simp [Session.builder, setMetadata, SetTTL, AddOutputs, AddInputs, NewTxBuilder]
  have eO : s.builder.body.outputs = s.outputs := by simp [Session.builder, setMetadata, SetTTL, AddOutputs, AddInputs, NewTxBuilder]
  have eT : s.builder.body.ttl = s.ttl := rfl
  have eA : s.builder.body.auxHash = [] := rfl
  have eM : s.builder.metadata = s.metadata := rfl
  have eK : s.builder.xprvs ++ [] = [key] := by rw [List.append_nil]; exact hkeys
  have eP : s.builder.protocol = s.protocol := rfl
  rw [eK] at h3
  -- the change
  obtain ⟨c1, -, change, c2, c3⟩ := C21_value_conserved (packageCrypto H blake256) s.builder s.change (by rw [eI]; exact hI)
    (by rw [eI, eO, ← hfee]; omega)
  have tI : t.body.inputs = s.inputs := by rw [hbody]; exact eI
  have tT : t.body.ttl = s.ttl := by rw [hbody]; exact eT
  have tA : t.body.auxHash = auxOf (packageCrypto H blake256) s.metadata [] m := by rw [hbody]; rfl
  have cf : (AddChangeIfNeeded (packageCrypto H blake256) s.builder s.change).body.fee = t.body.fee := hfee.symm
  have tO : t.body.outputs = s.outputs ++ [⟨s.change, change⟩] := by
    have : t.body.outputs = (AddChangeIfNeeded (packageCrypto H blake256) s.builder s.change).body.outputs := by rw [hbody]; rfl
    rw [this, c2, eO]
  rw [cf, eI, eO] at c3
  rw [show (AddChangeIfNeeded (packageCrypto H blake256) s.builder s.change).body.inputs = s.inputs from eI, cf, c2, eO] at c1
  -- fitting
  have hwl := witnessesOf_lengths _ (package_key_length H blake256) (package_sig_length H hH blake256) _ _ _ h3
  have hwf : WitnessFits t.witness := ⟨by rw [hwl.1]; exact (by decide : 1 < 2 ^ 63), fun w hw => by have := hwl.2 w hw; omega⟩
  have haux : t.body.auxHash = [] ∧ s.metadata = none ∨ t.body.auxHash = blake256 m ∧ s.metadata ≠ none := by
    rw [tA]
    cases hc : s.metadata with
    | none => exact .inl ⟨rfl, rfl⟩
    | some d => exact .inr ⟨rfl, nofun⟩
  have hrec : ∀ o ∈ t.body.outputs, Receives network (Addr.bytes o.address) ∧ s.protocol.minUTXOValue.toNat ≤ o.amount.toNat := by
    intro o ho
    rw [tO] at ho
    rcases List.mem_append.1 ho with ho | ho
    · exact hout o ho
    · rw [List.mem_singleton.1 ho]
      exact ⟨hch, by show _ ≤ change.toNat; rw [c3]; omega⟩
  have hbf : BodyFits t.body := by
    refine ⟨by rw [tI]; exact hlen, by rw [tO, List.length_append]; simp only [List.length_singleton]; omega, ?_, ?_, ?_⟩
    · intro i hi
      rw [tI] at hi
      rw [hu.ids i hi]; decide
    · intro o ho
      exact outputAddress_fits _ (hrec o ho).1.1
    · rcases haux with ⟨e, -⟩ | ⟨e, -⟩
      · rw [e]; decide
      · rw [e, h256]; decide
  -- reading
  have hread := Ledger.read_bytes t.body t.witness t.valid body m x hbf hwf h1 hx
  rw [← h2] at hread
  have hvv : t.valid = true := by rw [hval]; rfl
  rw [hvv] at hread
  obtain ⟨aux, ha1, ha2⟩ : ∃ aux, readAux x m = some aux ∧ (if t.body.auxHash = [] then none else some t.body.auxHash) = aux.map blake256 := by
    rcases haux with ⟨e, hm0⟩ | ⟨e, hm0⟩
    · exact ⟨none, (hn hm0).2, by rw [e]; rfl⟩
    · refine ⟨some m, hs hm0, ?_⟩
      rw [e, if_neg]
      · rfl
      · intro h0
        have := h256 m
        rw [h0] at this
        cases this
  dsimp only at hread
  rw [if_pos rfl, Ledger.assemble_ok bs.length t.body t.witness x body m aux
    (by rw [tI]; exact hu.ids) (fun o ho => (hrec o ho).1.1) hwl.2 ha1] at hread
  refine ⟨_, hread, ?_, by rw [← tI]; rfl, ?_, rfl, by rw [← tT]; rfl, ?_⟩
  rotate_left
  · show t.body.outputs.map outOf = _
    rw [tO, List.map_append, ← c3]; rfl
  · cases hc : s.metadata with
    | none =>
      rw [(hn hc).2] at ha1
      injection ha1 with ha1
      exact .inl ⟨rfl, ha1.symm⟩
    | some d =>
      rw [hs (by rw [hc]; nofun)] at ha1
      injection ha1 with ha1
      refine .inr ⟨d, m, rfl, ?_, ha1.symm⟩
      intro k
      have := hm k
      rw [hc] at this
      exact this
  -- the witness
  obtain ⟨h, b', k, e, hview, eb⟩ := hb.run
  obtain ⟨bb, g1, g2⟩ := C60_witnesses_verify H hH blake256 _ b' h e (by
    intro k hk'
    have : k ∈ [key] := by
      rw [← eK]; simpa [AddChangeIfNeeded, AddOutputs, SetFee, MinFee] using hk'
    rw [List.mem_singleton.1 this]; exact hk)
  rw [hview] at g1 g2
  rw [h1] at g1
  injection g1 with g1
  subst g1
  have hxs : ([].foldl TxBuilder.Sign (AddChangeIfNeeded (packageCrypto H blake256) s.builder s.change)).xprvs = [key] := by
    rw [← eK]; simp [AddChangeIfNeeded, AddOutputs, SetFee, MinFee]
  rw [hxs] at g2
  obtain ⟨w, hw, hwv⟩ : ∃ w, t.witness = [w] ∧ Valid H.sha512 w.vkey (blake256 body) w.signature := by
    generalize t.witness = ws at g2
    cases g2 with
    | cons g r => cases r; exact ⟨_, rfl, g.2⟩
  have hwk : w.vkey = pk := by
    rw [hw] at h3
    obtain ⟨w', e1, h3⟩ := bind_ok h3
    obtain ⟨ws', e2, h3⟩ := bind_ok h3
    injection h3 with h3
    injection h3 with h3 _
    subst h3
    obtain ⟨pk', p1, e1⟩ := bind_ok e1
    obtain ⟨sg, p2, e1⟩ := bind_ok e1
    injection e1 with e1
    rw [hpk] at p1
    injection p1 with p1
    rw [← e1, p1]
  -- the fee
  have hreg : Regular (packageCrypto H blake256) s.builder := by
    refine ⟨h256, package_key_length H blake256, package_sig_length H hH blake256, ⟨m.length, fun k => ⟨m, hm k, rfl⟩⟩, fun _ => rfl, ?_⟩
    intro w hw; cases hw
  obtain ⟨ab, hab⟩ : ∃ ab, marshalAddress s.change = .ok ab := by
    unfold marshalAddress
    cases hc : s.change with
    | reward n c =>
      exfalso
      rw [hc] at hch
      obtain ⟨⟨y, rest, e, hcc⟩, -⟩ := hch
      simp only [Addr.bytes] at e
      injection e with e _
      subst e
      have : ∀ (a b : UInt8), 8 ≤ ((0xe0 : UInt8) ||| a <<< 4 ||| (b &&& 0xf)).toNat / 16 := by
        intro a b
        have k1 : ∀ z : UInt8, 8 ≤ ((0xe0 : UInt8) ||| z).toNat / 16 := forall_byte (by decide +kernel)
        rw [UInt8.or_assoc]
        exact k1 _
      have := this c.kind n.networkId
      omega
    | _ => exact ⟨_, rfl⟩
  have hfin := C20_fee_sufficient_partial (packageCrypto H blake256) s.builder s.change [] t bs ab hb hreg
    (by rw [eK]; exact Nat.le_max_left _ _) (by show List.length [] ≤ _; decide) (by rw [eO]; exact hol) hab
    (by
      have e := Ledger.addressItem_bytes s.change hch.1
      have : ab = encBytes (Addr.bytes s.change) := by
        cases hc : s.change with
        | byron b => rw [hc] at e; cases e
        | reward n c => rw [hc] at hab; cases hab
        | base _ _ _ => rw [hc] at hab; injection hab with hab; exact hab.symm
        | enterprise _ _ => rw [hc] at hab; injection hab with hab; exact hab.symm
        | pointer _ _ _ => rw [hc] at hab; injection hab with hab; exact hab.symm
      have hl : (encHead 0x40 (UInt64.ofNat (Addr.bytes s.change).length)).length ≤ 2 := by
        have := hp.changeSize
        unfold encHead
        rw [ofNat64 _ (by omega)]
        split
        · simp
        · rw [if_pos (by omega)]; simp [beBytes]
      rw [this, encBytes, List.length_append]
      have := hp.changeSize
      omega)
    (by rw [eI]; exact hI) (by rw [eI, eO]; have := hp.minimum; omega) (by rw [eI, eO]; omega)
    (by rw [eI, eO]; exact hp.width) hp.fixed.1 hp.fixed.2 hp.perByte (by have := hp.maxSize; omega)
  refine ⟨?_, ?_, ?_, ?_, ?_, ?_, ?_, hsize, ?_, ?_, ha2⟩
  · intro n hn
    have hn : (if t.body.ttl = 0 then none else some t.body.ttl.toNat) = some n := hn
    rw [tT] at hn
    split at hn
    · cases hn
    · rename_i h0
      injection hn with hn
      rw [← hn]; exact httl h0
  · show t.body.inputs.map refOf ≠ []
    rw [tI]
    intro h0
    exact hne (List.map_eq_nil_iff.1 h0)
  · intro r hr
    have hr : r ∈ t.body.inputs.map refOf := hr
    rw [tI] at hr
    obtain ⟨i, hi, rfl⟩ := List.mem_map.1 hr
    obtain ⟨a, ha, -⟩ := hu.amounts i hi
    rw [ha]; rfl
  · show s.protocol.txFeePerByte.toNat * bs.length + s.protocol.txFeeFixed.toNat ≤ t.body.fee.toNat
    unfold linearFee at hfin
    rw [eP] at hfin
    omega
  · show ∑ r ∈ (t.body.inputs.map refOf).toFinset, u.amount r = ((t.body.outputs.map outOf).map (·.2)).sum + t.body.fee.toNat
    rw [tI, List.sum_toFinset _ hdis, amounts_sum u _ (fun i hi => by obtain ⟨a, ha, _⟩ := hu.amounts i hi; exact ⟨a, ha⟩), sum_map_outOf, tO]
    exact c1
  · intro o ho
    obtain ⟨o', ho', rfl⟩ := List.mem_map.1 (show o ∈ t.body.outputs.map outOf from ho)
    exact (hrec o' ho').2
  · intro o ho
    obtain ⟨o', ho', rfl⟩ := List.mem_map.1 (show o ∈ t.body.outputs.map outOf from ho)
    exact (hrec o' ho').1.2
  · intro w' hw'
    have hw' : w' ∈ t.witness.map witOf := hw'
    rw [hw] at hw'
    rw [List.mem_singleton.1 hw']
    exact hwv
  · intro r hr o ho
    have hr : r ∈ t.body.inputs.map refOf := hr
    rw [tI] at hr
    obtain ⟨i, hi, rfl⟩ := List.mem_map.1 hr
    obtain ⟨a, ha, pk', hpk', hpay⟩ := hu.amounts i hi
    rw [ho] at ha
    injection ha with ha
    subst ha
    rw [List.mem_singleton.1 hpk'] at hpay
    refine ⟨witOf w, ?_, ?_⟩
    · show witOf w ∈ t.witness.map witOf
      rw [hw]; exact List.mem_singleton.2 rfl
    · show Ledger.LockedBy _ a w.vkey
      rw [hwk]; exact hpay

/-! ### What the builder leaves to the user -/

/-- The requests have the sizes that Go and CBOR can hold. -/
structure Session.Fits (s : Session) : Prop where
  inputs : s.inputs.length < 2 ^ 63
  outputs : s.outputs.length < 2 ^ 32
  keys : s.keys.length < 2 ^ 63
  ids : ∀ i ∈ s.inputs, i.txHash.length < 2 ^ 63
  addrs : ∀ o ∈ s.outputs, AddressFits o.address
  change : AddressFits s.change
  metadata : GoodMetadata s.metadata

/-- What the ledger reads, if it can read the bytes at all. -/
theorem session_read (H : Hashes) (hH : H.Ok) (blake256 : Bytes → Bytes) (h256 : ∀ m, (blake256 m).length = 32)
    (s : Session) (fee : Nat) (bs : Bytes) (hf : s.Fits) (hy : s.Yields (packageCrypto H blake256) fee bs) (v : Ledger.TxView) (hv : read bs = some v) :
    v.inputs = s.inputs.map refOf ∧
    (∃ change, change.toNat = (totalIn s.inputs - totalOut s.outputs - UInt64.ofNat fee).toNat ∧ 
      v.outputs = s.outputs.map outOf ++ [outOf ⟨s.change, change⟩]) ∧
    v.fee = fee ∧ v.size = bs.length ∧ (∀ i ∈ s.inputs, i.txHash.length = 32) ∧ v.ttl = (if s.ttl = 0 then none else some s.ttl.toNat) := by
  obtain ⟨t, hb, rfl⟩ := hy
  obtain ⟨m, x, hm, hx, hn, hs⟩ := goodMetadata_enc _ hf.metadata
  obtain ⟨hbody, hval, body, h1, h2, h3⟩ := built_parts (packageCrypto H blake256) s.builder s.change [] t bs m hb hm
  have hfee : t.body.fee = (MinFee (packageCrypto H blake256) s.builder).1 := by rw [hbody]
  have eI : s.builder.body.inputs = s.inputs := by simp [Session.builder, setMetadata, SetTTL, AddOutputs, AddInputs, NewTxBuilder]
  have eO : s.builder.body.outputs = s.outputs := by simp [Session.builder, setMetadata, SetTTL, AddOutputs, AddInputs, NewTxBuilder]
  have eK : s.builder.xprvs ++ [] = s.keys := by rw [List.append_nil]; rfl
  rw [eK] at h3
  have tI : t.body.inputs = s.inputs := by rw [hbody]; exact eI
  have tA : t.body.auxHash = auxOf (packageCrypto H blake256) s.metadata [] m := by rw [hbody]; rfl
  have tO : t.body.outputs = s.outputs ++ [⟨s.change, totalIn s.inputs - totalOut s.outputs - t.body.fee⟩] := by
    rw [hfee, hbody]
    dsimp only
    rw [eI, eO]
  have hwl := witnessesOf_lengths _ (package_key_length H blake256) (package_sig_length H hH blake256) _ _ _ h3
  have hwf : WitnessFits t.witness := ⟨by rw [hwl.1]; exact hf.keys, fun w hw => by have := hwl.2 w hw; omega⟩
  have hbf : BodyFits t.body := by
    refine ⟨by rw [tI]; exact hf.inputs, by rw [tO, List.length_append]; have := hf.outputs; simp only [List.length_singleton]; omega, ?_, ?_, ?_⟩
    · intro i hi
      rw [tI] at hi
      exact hf.ids i hi
    · intro o ho
      rw [tO] at ho
      rcases List.mem_append.1 ho with ho | ho
      · exact hf.addrs o ho
      · rw [List.mem_singleton.1 ho]; exact hf.change
    · rw [tA]
      cases s.metadata with
      | none => exact (by decide : 0 < 2 ^ 63)
      | some d => show (blake256 m).length < _; rw [h256]; decide
  have hread := Ledger.read_bytes t.body t.witness t.valid body m x hbf hwf h1 hx
  rw [← h2] at hread
  dsimp only at hread
  rw [hv] at hread
  obtain ⟨aux, -, rfl, -, -, hids⟩ := Ledger.assemble_of _ _ _ _ _ _ _ _ hread.symm
  have tT : t.body.ttl = s.ttl := by rw [hbody]; rfl
  refine ⟨by rw [← tI]; rfl, ⟨totalIn s.inputs - totalOut s.outputs - t.body.fee, ?_, ?_⟩, rfl, rfl, by rw [← tI]; exact hids, by rw [← tT]; rfl⟩
  · rw [UInt64.ofNat_toNat]
  · show t.body.outputs.map outOf = _
    rw [tO, List.map_append]; rfl

/-- The change as a number, if the inputs cover outputs and fee. -/
theorem change_toNat (ins : List TxInput) (outs : List TxOutput) (fee : Nat) (hI : sumIn ins < 2 ^ 64) (hc : sumOut outs + fee ≤ sumIn ins) :
    (totalIn ins - totalOut outs - UInt64.ofNat fee).toNat = sumIn ins - sumOut outs - fee := by
  rw [UInt64.toNat_sub, UInt64.toNat_sub, totalIn_toNat, totalOut_toNat, UInt64.toNat_ofNat', Nat.mod_eq_of_lt hI,
    Nat.mod_eq_of_lt (show sumOut outs < 2 ^ 64 by omega), Nat.mod_eq_of_lt (show fee < 2 ^ 64 by omega)]
  omega

theorem sum_toFinset_le {α : Type} [DecidableEq α] (f : α → Nat) (l : List α) : ∑ x ∈ l.toFinset, f x ≤ (l.map f).sum := by
  induction l with
  | nil => simp
  | cons a l ih =>
    rw [List.toFinset_cons, List.map_cons, List.sum_cons]
    by_cases h : a ∈ l.toFinset
    · rw [Finset.insert_eq_of_mem h]; omega
    · rw [Finset.sum_insert h]; omega

/-- Summing over a set counts a repeated element once. -/
theorem sum_toFinset_lt {α : Type} [DecidableEq α] (f : α → Nat) (l : List α) (hpos : ∀ x ∈ l, 0 < f x) (hd : ¬ l.Nodup) :
    ∑ x ∈ l.toFinset, f x < (l.map f).sum := by
  induction l with
  | nil => exact absurd List.nodup_nil hd
  | cons a l ih =>
    rw [List.toFinset_cons, List.map_cons, List.sum_cons]
    by_cases h : a ∈ l
    · rw [Finset.insert_eq_of_mem (List.mem_toFinset.2 h)]
      have := sum_toFinset_le f l
      have := hpos a (by simp)
      omega
    · rw [Finset.sum_insert (by rwa [List.mem_toFinset])]
      have := ih (fun x hx => hpos x (by simp [hx])) (fun h' => hd (List.nodup_cons.2 ⟨h, h'⟩))
      omega

/-- **C78.** If the ledger accepts, then the amounts given to the builder were right in total - each input counted once - and covered
outputs and fee. So a wrong amount, an input given twice, or too little money leads to rejection, never to a payment the user did not ask for. -/
theorem C78_accepted_amounts_true (H : Hashes) (hH : H.Ok) (blake224 blake256 : Bytes → Bytes) (h256 : ∀ m, (blake256 m).length = 32)
    (s : Session) (u : UTxO) (fee : Nat) (bs : Bytes) (e : Env)
    (hf : s.Fits) (hy : s.Yields (packageCrypto H blake256) fee bs)
    (hI : sumIn s.inputs < 2 ^ 64) (hS : ∑ r ∈ (s.inputs.map refOf).toFinset, u.amount r < 2 ^ 64)
    (hval : Ledger.Valid (ledgerCrypto H blake224 blake256) e u bs) :
    ∑ r ∈ (s.inputs.map refOf).toFinset, u.amount r = sumIn s.inputs ∧ sumOut s.outputs + fee ≤ sumIn s.inputs := by
  obtain ⟨v, hv, ha⟩ := hval
  obtain ⟨h1, ⟨c, hc, h2⟩, h3, -⟩ := session_read H hH blake256 h256 s fee bs hf hy v hv
  have hcons := ha.conserved
  have e2 : (v.outputs.map (·.2)).sum = sumOut s.outputs + c.toNat := by
    rw [h2, List.map_append, List.sum_append, sum_map_outOf]
    simp [outOf]
  rw [h1, e2, h3] at hcons
  rw [UInt64.toNat_sub, UInt64.toNat_sub, totalIn_toNat, totalOut_toNat, UInt64.toNat_ofNat', Nat.mod_eq_of_lt hI,
    Nat.mod_eq_of_lt (show sumOut s.outputs < 2 ^ 64 by omega), Nat.mod_eq_of_lt (show fee < 2 ^ 64 by omega)] at hc
  omega

/-- **C78: an input given twice.** `AddInputs` keeps both copies and `AddChangeIfNeeded` counts the amount twice; the ledger counts it once and rejects. -/
theorem C78_duplicate_input_rejected (H : Hashes) (hH : H.Ok) (blake224 blake256 : Bytes → Bytes) (h256 : ∀ m, (blake256 m).length = 32)
    (s : Session) (u : UTxO) (fee : Nat) (bs : Bytes) (e : Env)
    (hf : s.Fits) (hy : s.Yields (packageCrypto H blake256) fee bs)
    (hu : ∀ i ∈ s.inputs, 0 < i.amount.toNat ∧ ∃ a, u (refOf i) = some (a, i.amount.toNat))
    (hdup : ¬ (s.inputs.map refOf).Nodup) (hI : sumIn s.inputs < 2 ^ 64) (hcover : sumOut s.outputs + fee ≤ sumIn s.inputs) :
    ¬ Ledger.Valid (ledgerCrypto H blake224 blake256) e u bs := by
  rintro ⟨v, hv, ha⟩
  obtain ⟨h1, ⟨c, hc, h2⟩, h3, -⟩ := session_read H hH blake256 h256 s fee bs hf hy v hv
  have hcons := ha.conserved
  have hs := amounts_sum u s.inputs (fun i hi => (hu i hi).2)
  have hlt := sum_toFinset_lt u.amount (s.inputs.map refOf) (by
    intro r hr
    obtain ⟨i, hi, rfl⟩ := List.mem_map.1 hr
    obtain ⟨hp, a, he⟩ := hu i hi
    show 0 < ((u (refOf i)).map _).getD 0
    rw [he]; exact hp) hdup
  rw [hs] at hlt
  rw [change_toNat _ _ _ hI hcover] at hc
  have e2 : (v.outputs.map (·.2)).sum = sumOut s.outputs + c.toNat := by
    rw [h2, List.map_append, List.sum_append, sum_map_outOf]
    simp [outOf]
  rw [h1, e2, h3, hc] at hcons
  omega

/-- **C78: too little.** If the inputs do not cover outputs and fee, the change amount wraps around and the ledger rejects. -/
theorem C78_uncovered_rejected (H : Hashes) (hH : H.Ok) (blake224 blake256 : Bytes → Bytes) (h256 : ∀ m, (blake256 m).length = 32)
    (s : Session) (u : UTxO) (fee : Nat) (bs : Bytes) (e : Env)
    (hf : s.Fits) (hy : s.Yields (packageCrypto H blake256) fee bs)
    (hu : ∀ i ∈ s.inputs, ∃ a, u (refOf i) = some (a, i.amount.toNat)) (hcover : sumIn s.inputs < sumOut s.outputs + fee) :
    ¬ Ledger.Valid (ledgerCrypto H blake224 blake256) e u bs := by
  rintro ⟨v, hv, ha⟩
  obtain ⟨h1, ⟨c, hc, h2⟩, h3, -⟩ := session_read H hH blake256 h256 s fee bs hf hy v hv
  have hcons := ha.conserved
  have hs := amounts_sum u s.inputs hu
  have hle : ∑ x ∈ (s.inputs.map refOf).toFinset, u.amount x ≤ sumIn s.inputs := by
    by_cases hd : (s.inputs.map refOf).Nodup
    · rw [List.sum_toFinset _ hd, hs]
    · rw [← hs]; exact sum_toFinset_le _ _
  have e2 : (v.outputs.map (·.2)).sum = sumOut s.outputs + c.toNat := by
    rw [h2, List.map_append, List.sum_append, sum_map_outOf]
    simp [outOf]
  rw [h1, e2, h3] at hcons
  omega

/-- **C79: a change output below the minimum.** The builder adds it, and the ledger rejects. -/
theorem C79_dust_change_rejected (H : Hashes) (hH : H.Ok) (blake224 blake256 : Bytes → Bytes) (h256 : ∀ m, (blake256 m).length = 32)
    (s : Session) (u : UTxO) (network slot fee : Nat) (bs : Bytes)
    (hf : s.Fits) (hy : s.Yields (packageCrypto H blake256) fee bs)
    (hI : sumIn s.inputs < 2 ^ 64) (hcover : sumOut s.outputs + fee ≤ sumIn s.inputs)
    (hdust : sumIn s.inputs < sumOut s.outputs + fee + s.protocol.minUTXOValue.toNat) :
    ¬ Ledger.Valid (ledgerCrypto H blake224 blake256) (envOf s.protocol network slot) u bs := by
  rintro ⟨v, hv, ha⟩
  obtain ⟨h1, ⟨c, hc, h2⟩, h3, -⟩ := session_read H hH blake256 h256 s fee bs hf hy v hv
  rw [change_toNat _ _ _ hI hcover] at hc
  have := ha.minimum (outOf ⟨s.change, c⟩) (by rw [h2]; simp)
  have : s.protocol.minUTXOValue.toNat ≤ c.toNat := this
  omega

/-- **C79: an output below the minimum.** -/
theorem C79_dust_output_rejected (H : Hashes) (hH : H.Ok) (blake224 blake256 : Bytes → Bytes) (h256 : ∀ m, (blake256 m).length = 32)
    (s : Session) (u : UTxO) (network slot fee : Nat) (bs : Bytes)
    (hf : s.Fits) (hy : s.Yields (packageCrypto H blake256) fee bs)
    (o : TxOutput) (ho : o ∈ s.outputs) (hdust : o.amount.toNat < s.protocol.minUTXOValue.toNat) :
    ¬ Ledger.Valid (ledgerCrypto H blake224 blake256) (envOf s.protocol network slot) u bs := by
  rintro ⟨v, hv, ha⟩
  obtain ⟨h1, ⟨c, hc, h2⟩, h3, -⟩ := session_read H hH blake256 h256 s fee bs hf hy v hv
  have := ha.minimum (outOf o) (by rw [h2]; exact List.mem_append_left _ (List.mem_map.2 ⟨o, ho, rfl⟩))
  have : s.protocol.minUTXOValue.toNat ≤ o.amount.toNat := this
  omega

/-- The network an address is for: the low half of its first byte (CIP-19). -/
def networkNibble (a : Bytes) : Option Nat := a.head?.map (·.toNat % 16)

/-- **C80: two networks in one transaction.** The builder adds outputs and change for different networks; no ledger accepts the result. -/
theorem C80_mixed_networks_rejected (H : Hashes) (hH : H.Ok) (blake224 blake256 : Bytes → Bytes) (h256 : ∀ m, (blake256 m).length = 32)
    (s : Session) (u : UTxO) (fee : Nat) (bs : Bytes) (e : Env)
    (hf : s.Fits) (hy : s.Yields (packageCrypto H blake256) fee bs)
    (a b : Address) (ha : a = s.change ∨ ∃ o ∈ s.outputs, o.address = a) (hb : b = s.change ∨ ∃ o ∈ s.outputs, o.address = b)
    (hab : networkNibble (Addr.bytes a) ≠ networkNibble (Addr.bytes b)) :
    ¬ Ledger.Valid (ledgerCrypto H blake224 blake256) e u bs := by
  rintro ⟨v, hv, hacc⟩
  obtain ⟨h1, ⟨c, hc, h2⟩, h3, -⟩ := session_read H hH blake256 h256 s fee bs hf hy v hv
  have key : ∀ x : Address, (x = s.change ∨ ∃ o ∈ s.outputs, o.address = x) → networkNibble (Addr.bytes x) = some e.network := by
    intro x hx
    obtain ⟨o, ho, hoa⟩ : ∃ o ∈ v.outputs, o.1 = Addr.bytes x := by
      rw [h2]
      rcases hx with rfl | ⟨o, ho, rfl⟩
      · exact ⟨_, List.mem_append_right _ (List.mem_singleton.2 rfl), rfl⟩
      · exact ⟨_, List.mem_append_left _ (List.mem_map.2 ⟨o, ho, rfl⟩), rfl⟩
    obtain ⟨h, rest, e1, e2⟩ := hacc.network o ho
    rw [← hoa, e1]
    show some (h.toNat % 16) = _
    rw [e2]
  exact hab (by rw [key a ha, key b hb])

/-- **C81: too large.** The builder does not look at the largest allowed size. -/
theorem C81_oversize_rejected (H : Hashes) (hH : H.Ok) (blake224 blake256 : Bytes → Bytes) (h256 : ∀ m, (blake256 m).length = 32)
    (s : Session) (u : UTxO) (network slot fee : Nat) (bs : Bytes)
    (hf : s.Fits) (hy : s.Yields (packageCrypto H blake256) fee bs) (hbig : s.protocol.maxTxSize.toNat < bs.length) :
    ¬ Ledger.Valid (ledgerCrypto H blake224 blake256) (envOf s.protocol network slot) u bs := by
  rintro ⟨v, hv, hacc⟩
  obtain ⟨-, -, -, h4, -⟩ := session_read H hH blake256 h256 s fee bs hf hy v hv
  have : v.size ≤ s.protocol.maxTxSize.toNat := hacc.size
  omega

/-- **C31: an id that is not 32 bytes long.** The builder takes it (it may come from text that is not hexadecimal); no ledger reads the transaction. -/
theorem C31_bad_id_rejected (H : Hashes) (hH : H.Ok) (blake256 : Bytes → Bytes) (h256 : ∀ m, (blake256 m).length = 32)
    (s : Session) (fee : Nat) (bs : Bytes) (hf : s.Fits) (hy : s.Yields (packageCrypto H blake256) fee bs)
    (i : TxInput) (hi : i ∈ s.inputs) (hid : i.txHash.length ≠ 32) : read bs = none := by
  cases hv : read bs with
  | none => rfl
  | some v =>
    obtain ⟨-, -, -, -, h5, -⟩ := session_read H hH blake256 h256 s fee bs hf hy v hv
    exact absurd (h5 i hi) hid

/-- **C95: tokens.** The builder knows only ada, so tokens in a spent output are not carried to the change. They are not lost: no ledger state accepts a transaction that spends an
output holding tokens. -/
theorem C95_tokens_rejected (H : Hashes) (hH : H.Ok) (blake224 blake256 : Bytes → Bytes) (h256 : ∀ m, (blake256 m).length = 32)
    (s : Session) (u : UTxO) (k : Ledger.Tokens) (fee : Nat) (bs : Bytes) (e : Env) (hf : s.Fits) (hy : s.Yields (packageCrypto H blake256) fee bs)
    (i : TxInput) (hi : i ∈ s.inputs) (asset : Bytes × Bytes) (hk : 0 < k (refOf i) asset) :
    ¬ Ledger.ValidTokens (ledgerCrypto H blake224 blake256) e u k bs := by
  rintro ⟨v, hv, ha⟩
  obtain ⟨h1, -⟩ := session_read H hH blake256 h256 s fee bs hf hy v hv
  have h := ha.tokens asset
  rw [h1, Finset.sum_eq_zero_iff] at h
  have := h (refOf i) (List.mem_toFinset.2 (List.mem_map.2 ⟨i, hi, rfl⟩))
  omega

/-- **C95, without tokens (partial).** If the spent outputs hold no tokens, the rules are those of C77. Missing: outputs with tokens. -/
theorem C95_ada_only_partial (C : Ledger.Crypto) (e : Env) (u : UTxO) (k : Ledger.Tokens) (bs : Bytes) (v : Ledger.TxView) (hv : read bs = some v)
    (hk : ∀ r ∈ v.inputs, ∀ asset, k r asset = 0) : Ledger.ValidTokens C e u k bs ↔ Ledger.Valid C e u bs := by
  constructor
  · rintro ⟨t, ht, ha⟩
    exact ⟨t, ht, ha.ada⟩
  · rintro ⟨t, ht, ha⟩
    rw [hv] at ht
    injection ht with ht
    subst ht
    exact ⟨_, hv, ha, fun asset => Finset.sum_eq_zero fun r hr => hk r (List.mem_toFinset.1 hr) asset⟩

/-! ### The calls succeed; two keys; examples -/

theorem collect_total (l : List TxOutput) (h : ∀ o ∈ l, ∃ b, marshalAddress o.address = .ok b) : ∃ bs, collect (l.map marshalOutput) = .ok bs := by
  induction l with
  | nil => exact ⟨[], rfl⟩
  | cons o l ih =>
    obtain ⟨a, ha⟩ := h o (by simp)
    obtain ⟨bs, hbs⟩ := ih (fun x hx => h x (by simp [hx]))
    have ho : marshalOutput o = .ok (encArray [a, encUint o.amount]) := by unfold marshalOutput; rw [ha]; rfl
    refine ⟨encArray [a, encUint o.amount] :: bs, ?_⟩
    rw [List.map_cons, collect, ho]
    simp only [Res.ok_bind]
    rw [hbs]; rfl

theorem witnessesOf_total (H : Hashes) (hH : H.Ok) (blake256 : Bytes → Bytes) (msg : Bytes) (keys : List Bytes)
    (hk : ∀ k ∈ keys, k.length = 96 ∧ leNat (k.take 32) < 2 ^ 255) : ∃ ws, witnessesOf (packageCrypto H blake256) msg keys = .ok ws := by
  induction keys with
  | nil => exact ⟨[], rfl⟩
  | cons k ks ih =>
    obtain ⟨ws, hws⟩ := ih (fun x hx => hk x (by simp [hx]))
    obtain ⟨h1, h2⟩ := hk k (by simp)
    obtain ⟨sig, pk, s1, s2, _⟩ := C37_signature_valid H hH k h1 h2 msg
    have p1 := packageCrypto_publicKey H blake256 k h1 h2
    rw [s2] at p1
    have s1' : (packageCrypto H blake256).sign k msg = .ok sig := s1
    exact ⟨⟨pk, sig⟩ :: ws, by simp only [witnessesOf, witnessOf, p1, s1', Res.ok_bind, hws]; rfl⟩

/-- **C77, the calls succeed**: outputs and change go to payment addresses, the metadata can be encoded, the keys have 96 bytes. -/
theorem C77_succeeds (H : Hashes) (hH : H.Ok) (blake256 : Bytes → Bytes) (s : Session) (hmd : GoodMetadata s.metadata)
    (ho : ∀ o ∈ s.outputs, ∃ b, marshalAddress o.address = .ok b) (hc : ∃ b, marshalAddress s.change = .ok b)
    (hk : ∀ k ∈ s.keys, k.length = 96 ∧ leNat (k.take 32) < 2 ^ 255) :
    ∃ fee bs, s.Yields (packageCrypto H blake256) fee bs := by
  obtain ⟨m, x, hm, -⟩ := goodMetadata_enc _ hmd
  let C := packageCrypto H blake256
  let b1 := AddChangeIfNeeded C s.builder s.change
  have eO : s.builder.body.outputs = s.outputs := by simp [Session.builder, setMetadata, SetTTL, AddOutputs, AddInputs, NewTxBuilder]
  have hca : ∀ (t : Tx) k, t.metadata = s.metadata → calcAux C t k = .ok { t.body with auxHash := auxOf C t.metadata t.body.auxHash m } := by
    intro t k ht
    exact calcAux_of C t m k (by rw [ht]; exact hm k)
  have hmb : ∀ aux, ∃ bb, marshalBody { b1.body with auxHash := aux } = .ok bb := by
    intro aux
    obtain ⟨outs, hou⟩ := collect_total b1.body.outputs (by
      intro o h
      have h : o ∈ s.builder.body.outputs ++ [⟨s.change, totalIn s.builder.body.inputs - totalOut s.builder.body.outputs - (MinFee C s.builder).1⟩] := h
      rw [eO] at h
      rcases List.mem_append.1 h with h | h
      · exact ho o h
      · rw [List.mem_singleton.1 h]; exact hc)
    unfold marshalBody
    simp only [hou, Res.ok_bind]
    exact ⟨_, rfl⟩
  have hmt : b1.metadata = s.metadata := rfl
  have hx : b1.xprvs = s.keys := rfl
  have h1 := hca (tx b1) b1.clock hmt
  generalize haux : auxOf C (tx b1).metadata (tx b1).body.auxHash m = aux at h1
  obtain ⟨bb, hbb⟩ := hmb aux
  have hbb : marshalBody { (tx b1).body with auxHash := aux } = .ok bb := hbb
  obtain ⟨ws, hws⟩ := witnessesOf_total H hH blake256 (blake256 bb) s.keys hk
  have hh : Transaction.hash C (tx b1) b1.clock = .ok (blake256 bb) := by
    unfold Transaction.hash
    rw [h1]; simp only [Res.ok_bind]; rw [hbb]; rfl
  have hB : ∃ h b', Build C b1 = (.ok h, b') := by
    unfold Build
    simp only [hh, hx]
    rw [show witnessesOf C (blake256 bb) s.keys = .ok ws from hws]
    exact ⟨_, _, rfl⟩
  obtain ⟨h, b', e⟩ := hB
  obtain ⟨body, bb', ws', g1, g2, g3, g4, g5⟩ := build_ok C b1 b' h e
  have hv := view_build b1 b' h body ws' g4 g5
  rw [h1] at g1
  injection g1 with g1
  have hbs : ∃ bs, bytes C (view b' h) 0 = .ok bs := by
    rw [hv]
    unfold Transaction.bytes
    rw [hca _ 0 hmt]
    simp only [Res.ok_bind]
    have : auxOf C b1.metadata body.auxHash m = aux := by rw [← g1, ← haux]; exact auxOf_idem _ _ _ _ _
    rw [this, ← g1]
    unfold marshalTx
    simp only
    rw [show marshalBody { inputs := (tx b1).body.inputs, outputs := (tx b1).body.outputs, fee := (tx b1).body.fee, ttl := (tx b1).body.ttl, auxHash := aux } = .ok bb from hbb]
    simp only [Res.ok_bind]
    rw [show marshalMetadata b1.metadata (0 + 1) = .ok m from hm _]
    exact ⟨_, rfl⟩
  obtain ⟨bs, hbs⟩ := hbs
  exact ⟨_, bs, view b' h, ⟨h, b', 0, e, rfl, hbs⟩, rfl⟩

/-- **C82: two or more keys.** The fee is estimated for one signature: if it is at most 200000 and covered, the ledger rejects. -/
theorem C82_two_keys_rejected (H : Hashes) (hH : H.Ok) (blake224 blake256 : Bytes → Bytes) (h256 : ∀ m, (blake256 m).length = 32)
    (s : Session) (u : UTxO) (network slot fee : Nat) (bs ab : Bytes)
    (hf : s.Fits) (hy : s.Yields (packageCrypto H blake256) fee bs) (hkeys : 2 ≤ s.keys.length)
    (hab : marshalAddress s.change = .ok ab) (habl : 59 ≤ ab.length) (hper : 0 < s.protocol.txFeePerByte.toNat)
    (hI : sumIn s.inputs < 2 ^ 64) (hfee : fee ≤ 200000) (hcover : sumOut s.outputs + 200000 ≤ sumIn s.inputs) :
    ¬ Ledger.Valid (ledgerCrypto H blake224 blake256) (envOf s.protocol network slot) u bs := by
  rintro ⟨v, hv, ha⟩
  obtain ⟨-, -, h3, h4, -⟩ := session_read H hH blake256 h256 s fee bs hf hy v hv
  obtain ⟨t, hb, rfl⟩ := hy
  obtain ⟨m, x, hm, -⟩ := goodMetadata_enc _ hf.metadata
  have eI : s.builder.body.inputs = s.inputs := by simp [Session.builder, setMetadata, SetTTL, AddOutputs, AddInputs, NewTxBuilder]
  have eO : s.builder.body.outputs = s.outputs := by simp [Session.builder, setMetadata, SetTTL, AddOutputs, AddInputs, NewTxBuilder]
  have eK : s.builder.xprvs ++ [] = s.keys := by rw [List.append_nil]; rfl
  have hreg : Regular (packageCrypto H blake256) s.builder := by
    refine ⟨h256, package_key_length H blake256, package_sig_length H hH blake256, ⟨m.length, fun k => ⟨m, hm k, rfl⟩⟩, fun _ => rfl, ?_⟩
    intro w hw; cases hw
  have := C20_multisig_underpays (packageCrypto H blake256) s.builder s.change [] t bs ab hb hreg (by rw [eK]; exact hkeys) (by rw [eK]; exact hf.keys) rfl
    (by rw [eO]; exact hf.outputs) hab habl (by rw [eI]; exact hI) hfee (by rw [eI, eO]; exact hcover)
  have hfe : s.protocol.txFeePerByte.toNat * v.size + s.protocol.txFeeFixed.toNat ≤ v.fee := ha.fee
  unfold linearFee at this
  rw [h3, h4] at hfe
  have : t.body.fee.toNat + 93 * s.protocol.txFeePerByte.toNat ≤ s.protocol.txFeeFixed.toNat + s.protocol.txFeePerByte.toNat * bs.length := this
  omega

/-- The session of the examples: one input of 10 ada, 5 ada to a base address of the golden files, change to another address. -/
def sampleSession (keys : List Bytes) (inp out : UInt64) (change : Address) : Session :=
  ⟨⟨44, 155381, 16384, 1000000⟩, keys, [⟨List.replicate 32 7, 0, inp⟩], [⟨.base MainNet goldenPayment goldenStake, out⟩], 0, none, change⟩

/-- Any key of 96 bytes with an ordinary scalar will do. -/
def sampleKey : Bytes := List.replicate 96 1

theorem sampleKey_ok : sampleKey.length = 96 ∧ leNat (sampleKey.take 32) < 2 ^ 255 := by decide +kernel

theorem yields_fee (C : Crypto) (s : Session) (fee : Nat) (bs : Bytes) (hmd : GoodMetadata s.metadata) (hy : s.Yields C fee bs) :
    fee = (MinFee C s.builder).1.toNat := by
  obtain ⟨t, hb, rfl⟩ := hy
  obtain ⟨m, x, hm, -⟩ := goodMetadata_enc _ hmd
  rw [(built_parts C s.builder s.change [] t bs m hb hm).1]

/-- A variant of `sampleSession`. -/
theorem variant_yields (H : Hashes) (hH : H.Ok) (bl : Bytes → Bytes) (s : Session) (hm : s.metadata = none) (hk : ∀ k ∈ s.keys, k = sampleKey)
    (ho : ∀ o ∈ s.outputs, o.address = .base MainNet goldenPayment goldenStake)
    (ha : ∃ b, marshalAddress s.change = .ok b) (fee : UInt64) (hfee : (MinFee (packageCrypto H bl) s.builder).1 = fee) :
    ∃ bs, s.Yields (packageCrypto H bl) fee.toNat bs := by
  obtain ⟨fee, bs, h⟩ := C77_succeeds H hH bl s (.inl hm)
    (by intro o h; rw [ho o h]; exact ⟨_, rfl⟩) ha (by intro k h; rw [hk k h]; exact sampleKey_ok)
  have := yields_fee _ _ _ _ (.inl hm) h
  rw [this, hfee] at h
  exact ⟨bs, h⟩

theorem sample_length (H : Hashes) (hH : H.Ok) (bl : Bytes → Bytes) (keys : List Bytes) (hk : keys.length < 2 ^ 63) (inp out : UInt64) (a : Address)
    (fee : UInt64) (bs : Bytes) (hy : (sampleSession keys inp out a).Yields (packageCrypto H bl) fee.toNat bs) :
    ∃ body, marshalBody ⟨[⟨List.replicate 32 7, 0, inp⟩], [⟨.base MainNet goldenPayment goldenStake, out⟩,
      ⟨a, totalIn [⟨List.replicate 32 7, 0, inp⟩] - totalOut [⟨.base MainNet goldenPayment goldenStake, out⟩] - fee⟩], fee, 0, []⟩ = .ok body ∧
      bs.length = 3 + body.length + wsize keys.length := by
  have hf := yields_fee _ _ _ _ (.inl rfl) hy
  obtain ⟨t, hb, hft⟩ := hy
  obtain ⟨hbody, hval, body, h1, h2, h3⟩ := built_parts (packageCrypto H bl) _ _ _ t bs encNil hb (fun _ => rfl)
  have hm : (MinFee (packageCrypto H bl) (sampleSession keys inp out a).builder).1 = fee := UInt64.toNat_inj.1 hf.symm
  rw [hm] at hbody
  have hbody : t.body = ⟨[⟨List.replicate 32 7, 0, inp⟩], [⟨.base MainNet goldenPayment goldenStake, out⟩,
      ⟨a, totalIn [⟨List.replicate 32 7, 0, inp⟩] - totalOut [⟨.base MainNet goldenPayment goldenStake, out⟩] - fee⟩], fee, 0, []⟩ := hbody
  rw [hbody] at h1
  refine ⟨body, h1, ?_⟩
  have h3' := witnessesOf_lengths _ (package_key_length H bl) (package_sig_length H hH bl) _ _ _ h3
  have hk' : (sampleSession keys inp out a).builder.xprvs ++ [] = keys := by rw [List.append_nil]; rfl
  rw [hk'] at h3'
  have hw := witness_length t.witness h3'.2 (by rw [h3'.1]; exact hk)
  rw [h3'.1] at hw
  have hbl : (encBool t.valid).length = 1 := by rw [hval]; rfl
  have hn : encNil.length = 1 := rfl
  rw [h2, List.length_cons, List.length_append, List.length_append, List.length_append, hbl, hn, hw]
  show _ = 3 + body.length + (if keys.length = 0 then 1 else 2 + uintSize keys.length + 101 * keys.length)
  omega

theorem sample_fits (keys : List Bytes) (hk : keys.length < 2 ^ 63) (inp out : UInt64) (a : Address) (ha : AddressFits a) :
    (sampleSession keys inp out a).Fits := by
  refine ⟨(by decide : 1 < 2 ^ 63), (by decide : 1 < 2 ^ 32), hk, ?_, ?_, ha, .inl rfl⟩
  · intro i hi; rw [List.mem_singleton.1 hi]; exact (by decide : (List.replicate 32 (7 : UInt8)).length < 2 ^ 63)
  · intro o ho; rw [List.mem_singleton.1 ho]; exact (by decide +kernel : (Addr.bytes (.base MainNet goldenPayment goldenStake)).length < 2 ^ 63)

def sizeOf? : Res Bytes → Option Nat
  | .ok b => some b.length
  | _ => none

def sizesOf? : Res (List Bytes) → Option Nat
  | .ok b => some b.flatten.length
  | _ => none

/-- The unspent outputs of the examples: one, at an address of the key `pk`. -/
def sampleUTxO (blake224 : Bytes → Bytes) (pk : Bytes) (inp : Nat) : UTxO := fun r =>
  if r = (List.replicate 32 7, 0) then some (0x61 :: blake224 pk, inp) else none

/-- C77: a session that meets all conditions, 10 ada in, 5 ada out; whatever the hash functions are, the ledger accepts. -/
theorem sample_accepted (H : Hashes) (hH : H.Ok) (blake224 blake256 : Bytes → Bytes) (h256 : ∀ m, (blake256 m).length = 32) :
    ∃ pk bs, (packageCrypto H blake256).publicKey sampleKey = .ok pk ∧ (sampleSession [sampleKey] 10000000 5000000 sampleAddr).Yields (packageCrypto H blake256) 167877 bs ∧
      Ledger.Valid (ledgerCrypto H blake224 blake256) (envOf (sampleSession [] 0 0 sampleAddr).protocol 1 0) (sampleUTxO blake224 pk 10000000) bs := by
  have hfee : (MinFee (packageCrypto H blake256) (sampleSession [sampleKey] 10000000 5000000 sampleAddr).builder).1 = 167877 := by
    have : (MinFee (packageCrypto H blake256) (sampleSession [sampleKey] 10000000 5000000 sampleAddr).builder).1 = (MinFee sampleCrypto (sampleSession [] 10000000 5000000 sampleAddr).builder).1 := rfl
    rw [this]; decide +kernel
  obtain ⟨bs, hy⟩ := variant_yields H hH blake256 _ rfl (by intro k h; exact List.mem_singleton.1 h) (by intro o h; rw [List.mem_singleton.1 h]) ⟨_, rfl⟩ _ hfee
  obtain ⟨_, pk, -, s2, -⟩ := C37_signature_valid H hH sampleKey sampleKey_ok.1 sampleKey_ok.2 []
  have p1 := packageCrypto_publicKey H blake256 sampleKey sampleKey_ok.1 sampleKey_ok.2
  rw [s2] at p1
  refine ⟨pk, bs, p1, hy, ?_⟩
  have hlen : bs.length ≤ 16384 := by
    obtain ⟨body, e1, e2⟩ := sample_length H hH blake256 [sampleKey] (by decide : 1 < 2 ^ 63) _ _ _ 167877 _ hy
    have e3 : sizeOf? (marshalBody ⟨[⟨List.replicate 32 7, 0, 10000000⟩], [⟨.base MainNet goldenPayment goldenStake, 5000000⟩, ⟨sampleAddr,
          totalIn [⟨List.replicate 32 7, 0, 10000000⟩] - totalOut [⟨.base MainNet goldenPayment goldenStake, 5000000⟩] - 167877⟩], 167877, 0, []⟩) = some 177 := by
      decide +kernel
    rw [e1] at e3
    injection e3 with e3
    rw [e2, e3]
    decide
  obtain ⟨v, hr, ha, -⟩ := C77_ledger_accepts_partial H hH blake224 blake256 h256 (sampleSession [sampleKey] 10000000 5000000 sampleAddr) sampleKey pk
    (sampleUTxO blake224 pk 10000000) 1 0 167877 bs rfl sampleKey_ok p1
    ⟨by intro i hi; rw [List.mem_singleton.1 hi]; decide, by
      intro i hi; rw [List.mem_singleton.1 hi]
      exact ⟨_, if_pos rfl, pk, List.mem_singleton.2 rfl, 0x61, [], by rw [List.append_nil], by decide⟩⟩
    (by decide) (by decide) (by decide : 1 < 2 ^ 63)
    (by intro o ho; rw [List.mem_singleton.1 ho]; exact ⟨⟨by decide +kernel, _, _, rfl, by decide +kernel⟩, by decide +kernel⟩)
    (by decide : 1 < 2 ^ 32) ⟨by decide +kernel, _, _, rfl, by decide +kernel⟩ (.inl rfl) (fun h => absurd rfl h) hy
    ⟨by decide, by decide, by decide, .inr (by decide +kernel), by decide +kernel, by decide⟩ (by decide) (by decide) hlen
  exact ⟨v, hr, ha⟩

/-- C78, first theorem: the hypotheses are met in the example for C77, where the ledger accepts. -/
example (blake224 : Bytes → Bytes) (pk : Bytes) :
    sumIn (sampleSession [sampleKey] 10000000 5000000 sampleAddr).inputs < 2 ^ 64 ∧
    ∑ r ∈ ((sampleSession [sampleKey] 10000000 5000000 sampleAddr).inputs.map refOf).toFinset, (sampleUTxO blake224 pk 10000000).amount r < 2 ^ 64 :=
  ⟨by decide, by show 10000000 + 0 < 2 ^ 64; decide⟩

/-- C78: the same input of 10 ada twice, 15 ada out. -/
example (H : Hashes) (hH : H.Ok) (blake256 : Bytes → Bytes) :
    ∃ (s : Session) (fee : Nat) (bs : Bytes) (u : UTxO), s.Fits ∧ s.Yields (packageCrypto H blake256) fee bs ∧
      (∀ i ∈ s.inputs, 0 < i.amount.toNat ∧ ∃ a, u (refOf i) = some (a, i.amount.toNat)) ∧
      ¬ (s.inputs.map refOf).Nodup ∧ sumIn s.inputs < 2 ^ 64 ∧ sumOut s.outputs + fee ≤ sumIn s.inputs := by
  let s0 (ks : List Bytes) : Session := { sampleSession ks 10000000 15000000 sampleAddr with inputs := List.replicate 2 ⟨List.replicate 32 7, 0, 10000000⟩ }
  have hfee : (MinFee (packageCrypto H blake256) (s0 [sampleKey]).builder).1 = 169461 := by
    have : (MinFee (packageCrypto H blake256) (s0 [sampleKey]).builder).1 = (MinFee sampleCrypto (s0 []).builder).1 := rfl
    rw [this]; decide +kernel
  obtain ⟨bs, hy⟩ := variant_yields H hH blake256 (s0 [sampleKey]) rfl (by intro k h; exact List.mem_singleton.1 h) (by intro o h; rw [List.mem_singleton.1 h]) ⟨_, rfl⟩ _ hfee
  refine ⟨s0 [sampleKey], _, bs, fun _ => some ([], 10000000), ?_, hy, ?_, by decide, by decide, by decide⟩
  · have := sample_fits [sampleKey] (by decide : 1 < 2 ^ 63) 0 15000000 sampleAddr (by decide +kernel : (Addr.bytes sampleAddr).length < 2 ^ 63)
    exact ⟨(by decide : 2 < 2 ^ 63), this.outputs, this.keys, by decide, this.addrs, this.change, this.metadata⟩
  · intro i hi
    have hi := List.eq_of_mem_replicate hi
    rw [hi]
    exact ⟨by decide, [], rfl⟩

/-- C78, second theorem: 5 ada in, 5 ada out, nothing for the fee. -/
example (H : Hashes) (hH : H.Ok) (blake256 : Bytes → Bytes) :
    ∃ (s : Session) (fee : Nat) (bs : Bytes), s.Fits ∧ s.Yields (packageCrypto H blake256) fee bs ∧ sumIn s.inputs < sumOut s.outputs + fee := by
  let s0 (ks : List Bytes) : Session := sampleSession ks 5100000 5000000 sampleAddr
  have hfee : (MinFee (packageCrypto H blake256) (s0 [sampleKey]).builder).1 = 168053 := by
    have : (MinFee (packageCrypto H blake256) (s0 [sampleKey]).builder).1 = (MinFee sampleCrypto (s0 []).builder).1 := rfl
    rw [this]; decide +kernel
  obtain ⟨bs, hy⟩ := variant_yields H hH blake256 (s0 [sampleKey]) rfl (by intro k h; exact List.mem_singleton.1 h) (by intro o h; rw [List.mem_singleton.1 h]) ⟨_, rfl⟩ _ hfee
  exact ⟨_, _, bs, sample_fits [sampleKey] (by decide : 1 < 2 ^ 63) _ _ sampleAddr (by decide +kernel : (Addr.bytes sampleAddr).length < 2 ^ 63), hy, by decide⟩

/-- C79: 10 ada in, 9 ada out: 0.83 ada change. -/
example (H : Hashes) (hH : H.Ok) (blake256 : Bytes → Bytes) :
    ∃ (s : Session) (fee : Nat) (bs : Bytes), s.Fits ∧ s.Yields (packageCrypto H blake256) fee bs ∧ sumIn s.inputs < 2 ^ 64 ∧
      sumOut s.outputs + fee ≤ sumIn s.inputs ∧ sumIn s.inputs < sumOut s.outputs + fee + s.protocol.minUTXOValue.toNat := by
  let s0 (ks : List Bytes) : Session := sampleSession ks 10000000 9000000 sampleAddr
  have hfee : (MinFee (packageCrypto H blake256) (s0 [sampleKey]).builder).1 = 167877 := by
    have : (MinFee (packageCrypto H blake256) (s0 [sampleKey]).builder).1 = (MinFee sampleCrypto (s0 []).builder).1 := rfl
    rw [this]; decide +kernel
  obtain ⟨bs, hy⟩ := variant_yields H hH blake256 (s0 [sampleKey]) rfl (by intro k h; exact List.mem_singleton.1 h) (by intro o h; rw [List.mem_singleton.1 h]) ⟨_, rfl⟩ _ hfee
  exact ⟨_, _, bs, sample_fits [sampleKey] (by decide : 1 < 2 ^ 63) _ _ sampleAddr (by decide +kernel : (Addr.bytes sampleAddr).length < 2 ^ 63), hy, by decide, by decide, by decide⟩

/-- C79, second theorem, and C80: one coin to mainnet, change to testnet. -/
example (H : Hashes) (hH : H.Ok) (blake256 : Bytes → Bytes) :
    ∃ (s : Session) (fee : Nat) (bs : Bytes), s.Fits ∧ s.Yields (packageCrypto H blake256) fee bs ∧
      (∃ o ∈ s.outputs, o.amount.toNat < s.protocol.minUTXOValue.toNat) ∧
      ∃ o ∈ s.outputs, networkNibble (Addr.bytes o.address) ≠ networkNibble (Addr.bytes s.change) := by
  let s0 (ks : List Bytes) : Session := sampleSession ks 10000000 1 (.base TestNet goldenPayment goldenStake)
  have hfee : (MinFee (packageCrypto H blake256) (s0 [sampleKey]).builder).1 = 167701 := by
    have : (MinFee (packageCrypto H blake256) (s0 [sampleKey]).builder).1 = (MinFee sampleCrypto (s0 []).builder).1 := rfl
    rw [this]; decide +kernel
  obtain ⟨bs, hy⟩ := variant_yields H hH blake256 (s0 [sampleKey]) rfl (by intro k h; exact List.mem_singleton.1 h) (by intro o h; rw [List.mem_singleton.1 h]) ⟨_, rfl⟩ _ hfee
  exact ⟨_, _, bs, sample_fits [sampleKey] (by decide : 1 < 2 ^ 63) _ _ (.base TestNet goldenPayment goldenStake) (by decide +kernel : (Addr.bytes (.base TestNet goldenPayment goldenStake)).length < 2 ^ 63), hy,
    ⟨_, List.mem_singleton.2 rfl, by decide⟩, ⟨_, List.mem_singleton.2 rfl, by decide +kernel⟩⟩

/-- C81: 300 outputs of one ada each. -/
example (H : Hashes) (hH : H.Ok) (blake256 : Bytes → Bytes) :
    ∃ (s : Session) (fee : Nat) (bs : Bytes), s.Fits ∧ s.Yields (packageCrypto H blake256) fee bs ∧ s.protocol.maxTxSize.toNat < bs.length := by
  let s : Session := { sampleSession [sampleKey] 500000000 0 sampleAddr with outputs := List.replicate 300 ⟨.base MainNet goldenPayment goldenStake, 1000000⟩ }
  have hout : ∀ o ∈ s.outputs, o.address = .base MainNet goldenPayment goldenStake := fun o h => by rw [List.eq_of_mem_replicate h]
  obtain ⟨bs, hy⟩ := variant_yields H hH blake256 s rfl (by intro k h; exact List.mem_singleton.1 h) hout ⟨_, rfl⟩ _ rfl
  refine ⟨s, _, bs, ?_, hy, ?_⟩
  · have := sample_fits [sampleKey] (by decide : 1 < 2 ^ 63) 500000000 0 sampleAddr (by decide +kernel : (Addr.bytes sampleAddr).length < 2 ^ 63)
    refine ⟨this.inputs, (by show (List.replicate 300 _).length < _; rw [List.length_replicate]; decide), this.keys, this.ids, ?_, this.change, this.metadata⟩
    intro o h
    rw [hout o h]; exact (by decide +kernel : (Addr.bytes (.base MainNet goldenPayment goldenStake)).length < 2 ^ 63)
  · obtain ⟨t, hb, hft⟩ := hy
    obtain ⟨hbody, hval, body, h1, h2, h3⟩ := built_parts (packageCrypto H blake256) _ _ _ t bs encNil hb (fun _ => rfl)
    rw [hbody] at h1
    obtain ⟨outs, ho, hl⟩ := body_length _ _ h1 (.inl rfl)
    obtain ⟨as, a, g1, g2, g3⟩ := (collect_append _ _ _).1 ho
    have hg : sizesOf? (collect ((List.replicate 300 (⟨.base MainNet goldenPayment goldenStake, 1000000⟩ : TxOutput)).map marshalOutput)) = some 19500 := by decide +kernel
    have g1 : collect ((List.replicate 300 (⟨.base MainNet goldenPayment goldenStake, 1000000⟩ : TxOutput)).map marshalOutput) = .ok as := g1
    rw [g1] at hg
    injection hg with hg
    have h5 : as.flatten.length ≤ (encArray outs).length := by
      rw [g3]; simp only [encArray, List.length_append, List.flatten_append]; omega
    rw [h2, List.length_cons, List.length_append, List.length_append, List.length_append, hl]
    show 16384 < _
    omega

/-- C82: two keys. -/
example (H : Hashes) (hH : H.Ok) (blake256 : Bytes → Bytes) :
    ∃ (s : Session) (fee : Nat) (bs ab : Bytes), s.Fits ∧ s.Yields (packageCrypto H blake256) fee bs ∧ 2 ≤ s.keys.length ∧
      marshalAddress s.change = .ok ab ∧ 59 ≤ ab.length ∧ 0 < s.protocol.txFeePerByte.toNat ∧ sumIn s.inputs < 2 ^ 64 ∧ fee ≤ 200000 ∧
      sumOut s.outputs + 200000 ≤ sumIn s.inputs := by
  let s0 (ks : List Bytes) : Session := sampleSession ks 10000000 5000000 sampleAddr
  have hfee : (MinFee (packageCrypto H blake256) (s0 (List.replicate 2 sampleKey)).builder).1 = 167877 := by
    have : (MinFee (packageCrypto H blake256) (s0 (List.replicate 2 sampleKey)).builder).1 = (MinFee sampleCrypto (s0 []).builder).1 := rfl
    rw [this]; decide +kernel
  obtain ⟨bs, hy⟩ := variant_yields H hH blake256 (s0 (List.replicate 2 sampleKey)) rfl (by intro k h; exact List.eq_of_mem_replicate h)
    (by intro o h; rw [List.mem_singleton.1 h]) ⟨_, rfl⟩ _ hfee
  exact ⟨_, _, bs, sampleAddrBytes, sample_fits (List.replicate 2 sampleKey) (by decide : 2 < 2 ^ 63) _ _ sampleAddr (by decide +kernel : (Addr.bytes sampleAddr).length < 2 ^ 63), hy,
    (by decide : 2 ≤ 2), rfl, by decide +kernel, by decide, by decide, by decide, by decide⟩

/-- C31, C95: sessions that meet the hypotheses: an input without id; an input holding a token. -/
example (H : Hashes) (hH : H.Ok) (blake256 : Bytes → Bytes) :
    (∃ (s : Session) (fee : Nat) (bs : Bytes) (i : TxInput), s.Fits ∧ s.Yields (packageCrypto H blake256) fee bs ∧ i ∈ s.inputs ∧ i.txHash.length ≠ 32) ∧
    ∃ (s : Session) (fee : Nat) (bs : Bytes) (i : TxInput) (k : Ledger.Tokens) (a : Bytes × Bytes), s.Fits ∧ s.Yields (packageCrypto H blake256) fee bs ∧ i ∈ s.inputs ∧ 0 < k (refOf i) a := by
  have hk : ∀ k ∈ [sampleKey], k.length = 96 ∧ leNat (k.take 32) < 2 ^ 255 := by intro k hk; rw [List.mem_singleton.1 hk]; exact sampleKey_ok
  have ho : ∃ b, marshalAddress (.base MainNet goldenPayment goldenStake) = .ok b := ⟨_, rfl⟩
  have hfit : AddressFits (.base MainNet goldenPayment goldenStake) := (by decide +kernel : (Addr.bytes (.base MainNet goldenPayment goldenStake)).length < 2 ^ 63)
  have h1 := sample_fits [sampleKey] (by decide) 10000000 5000000 sampleAddr
    (by exact (by decide +kernel : (Addr.bytes sampleAddr).length < 2 ^ 63))
  constructor
  · let s : Session := { sampleSession [sampleKey] 10000000 5000000 sampleAddr with inputs := [⟨[], 0, 10000000⟩] }
    obtain ⟨fee, bs, hy⟩ := C77_succeeds H hH blake256 s (.inl rfl) (by intro o h; rw [List.mem_singleton.1 h]; exact ho) ⟨_, rfl⟩ hk
    refine ⟨s, fee, bs, ⟨[], 0, 10000000⟩, ⟨by decide, h1.outputs, h1.keys, by intro i hi; rw [List.mem_singleton.1 hi]; decide, h1.addrs, h1.change, .inl rfl⟩, hy,
      List.mem_singleton.2 rfl, by decide⟩
  · obtain ⟨fee, bs, hy⟩ := C77_succeeds H hH blake256 (sampleSession [sampleKey] 10000000 5000000 sampleAddr) (.inl rfl) (by intro o h; rw [List.mem_singleton.1 h]; exact ho) ⟨_, rfl⟩ hk
    exact ⟨_, fee, bs, ⟨List.replicate 32 7, 0, 10000000⟩, fun _ _ => 1, ([], []), h1, hy, List.mem_singleton.2 rfl, by decide⟩

end Cardano.Props
