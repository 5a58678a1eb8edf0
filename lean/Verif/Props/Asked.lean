import Verif.Props.Chain
/-!
# Properties C123 to C125: an accepted transaction does what was asked of the builder, expires when asked to, and costs no more than needed
-/
set_option autoImplicit false

namespace Cardano.Props
open Cbor TxSpec Transaction TxBuilder Addr Bip32 Spec
open Ledger (read seen refOf outOf witOf Env UTxO OutputAddress readAux)

/-! ### C123 -/

/-- The outputs that the calls ask for: those of `AddOutputs` with address and amount, one with the address given for each `AddChangeIfNeeded`, in the order of the
calls, and nothing else. -/
inductive Asked : List Op → List Ledger.Out → Prop
  | nil : Asked [] []
  | outputs (l : List TxOutput) (ops : List Op) (rest : List Ledger.Out) : Asked ops rest →
      Asked (.addOutputs l :: ops) (l.map (fun o => (Addr.bytes o.address, o.amount.toNat)) ++ rest)
  | change (a : Address) (amount : Nat) (ops : List Op) (rest : List Ledger.Out) : Asked ops rest → Asked (.addChange a :: ops) ((Addr.bytes a, amount) :: rest)
  | other (op : Op) (ops : List Op) (rest : List Ledger.Out) : (∀ l, op ≠ .addOutputs l) → (∀ a, op ≠ .addChange a) → Asked ops rest → Asked (op :: ops) rest

/-- The inputs that the calls ask for. -/
def Spends (ops : List Op) (r : Ledger.Ref) : Prop := ∃ l, .addInputs l ∈ ops ∧ ∃ i ∈ l, r = (i.txHash, i.index.toNat)

/-- The outputs of the builder are those it had, and those asked for. -/
theorem run_asked (C : Crypto) (ops : List Op) : ∀ b : Builder, ∃ l, (run C b ops).body.outputs = b.body.outputs ++ l ∧ Asked ops (l.map outOf) := by
  induction ops with
  | nil => intro b; exact ⟨[], by simp [run], .nil⟩
  | cons op ops ih =>
    intro b
    obtain ⟨l, h1, h2⟩ := ih (step C b op)
    have hr : run C b (op :: ops) = run C (step C b op) ops := rfl
    rw [hr, h1]
    cases op with
    | addOutputs l' =>
      refine ⟨l' ++ l, ?_, ?_⟩
      · rw [← List.append_assoc]; rfl
      · rw [List.map_append]; exact .outputs l' ops _ h2
    | addChange a =>
      simp only [step]
      rw [addChange_eq]
      refine ⟨⟨a, totalIn b.body.inputs - totalOut b.body.outputs - (MinFee C b).1⟩ :: l, ?_, ?_⟩
      · simp [MinFee]
      · exact .change a _ ops _ h2
    | build =>
      refine ⟨l, ?_, .other _ _ _ nofun nofun h2⟩
      rw [show (step C b .build).body.outputs = b.body.outputs from (build_fields C b).2.1]
    | bytesOf h =>
      refine ⟨l, ?_, .other _ _ _ nofun nofun h2⟩
      rw [show (step C b (.bytesOf h)).body.outputs = b.body.outputs from (afterAux_fields C (view b h) b.clock).2.1]
    | addInputs _ => exact ⟨l, rfl, .other _ _ _ nofun nofun h2⟩
    | setTTL _ => exact ⟨l, rfl, .other _ _ _ nofun nofun h2⟩
    | sign _ => exact ⟨l, rfl, .other _ _ _ nofun nofun h2⟩
    | minFee => exact ⟨l, rfl, .other _ _ _ nofun nofun h2⟩
    | setMetadata _ => exact ⟨l, rfl, .other _ _ _ nofun nofun h2⟩

theorem mem_inputs (C : Crypto) (p : Protocol) (ks : List Bytes) (ops : List Op) (r : Ledger.Ref) :
    r ∈ (run C (NewTxBuilder p ks) ops).body.inputs.map refOf ↔ Spends ops r := by
  obtain ⟨g1, -⟩ := C29_history C ops (NewTxBuilder p ks)
  rw [g1]
  constructor
  · intro h
    obtain ⟨i, hi, e⟩ := List.mem_map.1 h
    rcases List.mem_append.1 hi with hi | hi
    · cases hi
    · obtain ⟨op, hop, hi⟩ := List.mem_flatMap.1 hi
      cases op with
      | addInputs l => exact ⟨l, hop, i, hi, e.symm⟩
      | _ => cases hi
  · rintro ⟨l, hop, i, hi, e⟩
    exact List.mem_map.2 ⟨i, List.mem_append_right _ (List.mem_flatMap.2 ⟨_, hop, hi⟩), e.symm⟩

/-- The id reported by the built transaction is the hash of what the ledger takes for the body. -/
theorem finish_id (H : Hashes) (hH : H.Ok) (blake256 : Bytes → Bytes) (h256 : ∀ m, (blake256 m).length = 32) (b b' : Builder) (h : Handle) (k k' : Nat) (bs : Bytes)
    (hf : BuilderFits b) (e : Build (packageCrypto H blake256) b = (.ok h, b')) (eb : bytes (packageCrypto H blake256) (view b' h) k = .ok bs)
    (v : Ledger.TxView) (hv : read bs = some v) : Transaction.hash (packageCrypto H blake256) (view b' h) k' = .ok (blake256 v.body) := by
  obtain ⟨m, x, hm, hx, -⟩ := goodMetadata_enc _ hf.metadata
  obtain ⟨ws, body, g1, g2, g3⟩ := finish_parts _ b bs m ⟨h, b', k, e, eb⟩ hm
  obtain ⟨body', bb, ws', h1, h2, h3, h4, h5⟩ := build_ok _ _ b' h e
  have hv' := view_build _ b' h body' ws' h4 h5
  rw [calcAux_of _ (tx b) m b.clock (hm _)] at h1
  have h1 : { b.body with auxHash := auxOf (packageCrypto H blake256) b.metadata b.body.auxHash m } = body' := Res.ok.inj h1
  have hc : calcAux (packageCrypto H blake256) (view b' h) k' = .ok body' := by
    rw [hv', calcAux_of _ _ m k' (hm k'), ← h1]
    simp only [auxOf_idem]
  have hhash : Transaction.hash (packageCrypto H blake256) (view b' h) k' = .ok (blake256 bb) := by
    unfold Transaction.hash
    rw [hc]
    show (marshalBody body' >>= fun x => pure (blake256 x)) = _
    rw [h2]; rfl
  rw [hhash]
  rw [h1, h2] at g1
  have g1 := Res.ok.inj g1
  subst g1
  have hwl := witnessesOf_lengths _ (package_key_length H blake256) (package_sig_length H hH blake256) _ _ _ g3
  have hwf : WitnessFits ws := ⟨by rw [hwl.1]; exact hf.keys, fun w hw => by have := hwl.2 w hw; omega⟩
  have hbf : BodyFits { b.body with auxHash := auxOf (packageCrypto H blake256) b.metadata b.body.auxHash m } := by
    refine ⟨hf.inputs, hf.outputs, hf.ids, hf.addrs, ?_⟩
    show (auxOf _ _ _ _).length < _
    cases b.metadata with
    | none => exact hf.aux
    | some d => show (blake256 m).length < _; rw [h256]; decide
  have hread := Ledger.read_bytes _ ws b.valid bb m x hbf hwf (by rw [h1]; exact h2) hx
  rw [← g2] at hread
  dsimp only at hread
  rw [hv] at hread
  obtain ⟨aux, -, rfl, -⟩ := Ledger.assemble_of _ _ _ _ _ _ _ _ hread.symm
  rfl

/-- **C123.** Whatever was called on a builder, in whatever order: if the ledger accepts the bytes of what `Build` then returns, the unspent outputs afterwards are the
outputs asked for, numbered in the order of the calls, under the id that `Hash` reports, and all others as before without the inputs asked for; nothing is gained or
lost but the fee. -/
theorem C123_does_what_was_asked (H : Hashes) (hH : H.Ok) (blake224 blake256 : Bytes → Bytes) (h256 : ∀ m, (blake256 m).length = 32)
    (p : Protocol) (ks : List Bytes) (ops : List Op) (u : UTxO) (e : Env) (h : Handle) (b' : Builder) (k : Nat) (bs : Bytes)
    (hf : BuilderFits (run (packageCrypto H blake256) (NewTxBuilder p ks) ops))
    (hb : Build (packageCrypto H blake256) (run (packageCrypto H blake256) (NewTxBuilder p ks) ops) = (.ok h, b'))
    (hy : bytes (packageCrypto H blake256) (view b' h) k = .ok bs) (v : Ledger.TxView) (hv : read bs = some v)
    (ha : Ledger.Accepts (ledgerCrypto H blake224 blake256) e u v) :
    ∃ id outs, (∀ k', Transaction.hash (packageCrypto H blake256) (view b' h) k' = .ok id) ∧ Asked ops outs ∧
      (∀ n, Ledger.apply (ledgerCrypto H blake224 blake256) u v (id, n) = outs[n]?) ∧
      (∀ r : Ledger.Ref, r.1 ≠ id → Spends ops r → (u r).isSome ∧ Ledger.apply (ledgerCrypto H blake224 blake256) u v r = none) ∧
      (∀ r : Ledger.Ref, r.1 ≠ id → ¬ Spends ops r → Ledger.apply (ledgerCrypto H blake224 blake256) u v r = u r) ∧
      ∃ spent : Finset Ledger.Ref, (∀ r, r ∈ spent ↔ Spends ops r) ∧ ∑ r ∈ spent, u.amount r = (outs.map (·.2)).sum + (view b' h).body.fee.toNat := by
  have hfin : Finishes (packageCrypto H blake256) (run (packageCrypto H blake256) (NewTxBuilder p ks) ops) bs := ⟨h, b', k, hb, hy⟩
  obtain ⟨r1, r2, r3, -, -⟩ := finish_read H hH blake256 h256 _ bs hf hfin v hv
  obtain ⟨l, a1, a2⟩ := run_asked (packageCrypto H blake256) ops (NewTxBuilder p ks)
  have a1 : (run (packageCrypto H blake256) (NewTxBuilder p ks) ops).body.outputs = l := a1
  have hmem : ∀ r, r ∈ v.inputs ↔ Spends ops r := by
    intro r; rw [r1]; exact mem_inputs _ p ks ops r
  have hfee : (view b' h).body.fee = (run (packageCrypto H blake256) (NewTxBuilder p ks) ops).body.fee := by
    obtain ⟨body', bb, ws', h1, h2, h3, h4, h5⟩ := build_ok _ _ b' h hb
    rw [view_build _ b' h body' ws' h4 h5]
    exact (calcAux_outputs _ _ _ _ h1).2.2.1
  refine ⟨blake256 v.body, l.map outOf, fun k' => finish_id H hH blake256 h256 _ b' h k k' bs hf hb hy v hv, a2, ?_, ?_, ?_, v.inputs.toFinset, ?_, ?_⟩
  · intro n
    refine (if_pos rfl).trans ?_
    rw [r2, a1]
  · intro r hr hs
    refine ⟨ha.exist r ((hmem r).2 hs), ?_⟩
    exact (if_neg hr).trans (if_pos ((hmem r).2 hs))
  · intro r hr hs
    exact (if_neg hr).trans (if_neg (fun h => hs ((hmem r).1 h)))
  · intro r; rw [List.mem_toFinset]; exact hmem r
  · rw [ha.conserved, r2, a1, r3, hfee]

/-! ### C124 -/

/-- The time to live that the calls ask for: that of the last `SetTTL`; 0 if there is none. -/
def AsksTTL (ops : List Op) (n : UInt32) : Prop :=
  (∃ before after, ops = before ++ .setTTL n :: after ∧ ∀ op ∈ after, ∀ n', op ≠ .setTTL n') ∨ (n = 0 ∧ ∀ op ∈ ops, ∀ n', op ≠ .setTTL n')

theorem lastTTL_none (l : List Op) (h : ∀ op ∈ l, ∀ n', op ≠ .setTTL n') (t : UInt32) : lastTTL t l = t := by
  induction l with
  | nil => rfl
  | cons op l ih =>
    have := ih (fun o ho => h o (List.mem_cons_of_mem _ ho))
    cases op with
    | setTTL n' => exact absurd rfl (h _ List.mem_cons_self n')
    | _ => exact this

theorem lastTTL_append (l l' : List Op) : ∀ t, lastTTL t (l ++ l') = lastTTL (lastTTL t l) l' := by
  induction l with
  | nil => intro t; rfl
  | cons op l ih =>
    intro t
    cases op with
    | setTTL n => exact ih n
    | _ => exact ih t

theorem asksTTL_iff (ops : List Op) (n : UInt32) (h : AsksTTL ops n) : lastTTL 0 ops = n := by
  rcases h with ⟨before, after, rfl, ha⟩ | ⟨rfl, ha⟩
  · rw [lastTTL_append]; exact lastTTL_none after ha n
  · exact lastTTL_none ops ha 0

/-- What the ledger reads as time to live. -/
theorem finish_ttl (H : Hashes) (hH : H.Ok) (blake256 : Bytes → Bytes) (h256 : ∀ m, (blake256 m).length = 32)
    (p : Protocol) (ks : List Bytes) (ops : List Op) (n : UInt32) (hn : AsksTTL ops n) (bs : Bytes)
    (hf : BuilderFits (run (packageCrypto H blake256) (NewTxBuilder p ks) ops))
    (hy : Finishes (packageCrypto H blake256) (run (packageCrypto H blake256) (NewTxBuilder p ks) ops) bs)
    (v : Ledger.TxView) (hv : read bs = some v) : v.ttl = if n = 0 then none else some n.toNat := by
  obtain ⟨-, -, -, -, r5⟩ := finish_read H hH blake256 h256 _ bs hf hy v hv
  obtain ⟨-, -, g3, -⟩ := C29_history (packageCrypto H blake256) ops (NewTxBuilder p ks)
  rw [g3, show (NewTxBuilder p ks).body.ttl = 0 from rfl, asksTTL_iff ops n hn] at r5
  exact r5

/-- **C124.** Whatever was called on a builder: from the slot given in the last call of `SetTTL` on the ledger does not accept the bytes, whatever its state (if the
slot given is not zero). -/
theorem C124_expires (H : Hashes) (hH : H.Ok) (blake224 blake256 : Bytes → Bytes) (h256 : ∀ m, (blake256 m).length = 32)
    (p : Protocol) (ks : List Bytes) (ops : List Op) (n : UInt32) (hn : AsksTTL ops n) (h0 : n ≠ 0) (u : UTxO) (e : Env) (bs : Bytes)
    (hf : BuilderFits (run (packageCrypto H blake256) (NewTxBuilder p ks) ops))
    (hy : Finishes (packageCrypto H blake256) (run (packageCrypto H blake256) (NewTxBuilder p ks) ops) bs)
    (he : n.toNat ≤ e.slot) : ¬ Ledger.Valid (ledgerCrypto H blake224 blake256) e u bs := by
  rintro ⟨v, hv, ha⟩
  have r5 := finish_ttl H hH blake256 h256 p ks ops n hn bs hf hy v hv
  rw [if_neg h0] at r5
  have := ha.ttl _ r5
  omega

/-- **C124, exactly.** What the ledger accepts in one slot it accepts in all others before the slot given, while its state is the same; in all others without exception if
no slot was given, or the slot 0. -/
theorem C124_exactly (H : Hashes) (hH : H.Ok) (blake224 blake256 : Bytes → Bytes) (h256 : ∀ m, (blake256 m).length = 32)
    (p : Protocol) (ks : List Bytes) (ops : List Op) (n : UInt32) (hn : AsksTTL ops n) (u : UTxO) (e : Env) (slot : Nat) (bs : Bytes)
    (hf : BuilderFits (run (packageCrypto H blake256) (NewTxBuilder p ks) ops))
    (hy : Finishes (packageCrypto H blake256) (run (packageCrypto H blake256) (NewTxBuilder p ks) ops) bs)
    (ha : Ledger.Valid (ledgerCrypto H blake224 blake256) e u bs) :
    Ledger.Valid (ledgerCrypto H blake224 blake256) { e with slot := slot } u bs ↔ n = 0 ∨ slot < n.toNat := by
  constructor
  · intro h
    by_cases h0 : n = 0
    · exact .inl h0
    · by_cases h1 : slot < n.toNat
      · exact .inr h1
      · exact absurd h (C124_expires H hH blake224 blake256 h256 p ks ops n hn h0 u _ bs hf hy (Nat.le_of_not_lt h1))
  · intro h
    obtain ⟨v, hv, ha⟩ := ha
    have r5 := finish_ttl H hH blake256 h256 p ks ops n hn bs hf hy v hv
    refine ⟨v, hv, ?_, ha.nonempty, ha.exist, ha.fee, ha.conserved, ha.minimum, ha.network, ha.size, ha.signatures, ha.unlocked, ha.aux⟩
    intro n' e'
    rw [r5] at e'
    split at e'
    · cases e'
    · rename_i h0
      have := Option.some.inj e'
      show slot < n'
      rcases h with h | h
      · exact absurd h h0
      · omega

/-! ### C125 -/

/-- An output address is written in two bytes more than it has. -/
theorem outputAddress_written (a : Address) (h : OutputAddress (Addr.bytes a)) :
    ∃ ab, marshalAddress a = .ok ab ∧ ab.length = (Addr.bytes a).length + 2 := by
  have hl : 24 ≤ (Addr.bytes a).length ∧ (Addr.bytes a).length < 256 := by
    obtain ⟨y, rest, e, hc⟩ := h
    rw [e, List.length_cons]
    omega
  have hw : (encBytes (Addr.bytes a)).length = (Addr.bytes a).length + 2 := by
    unfold encBytes
    rw [List.length_append]
    have : (encHead 0x40 (UInt64.ofNat (Addr.bytes a).length)).length = 2 := by
      unfold encHead
      rw [ofNat64 _ (by omega), if_neg (by omega), if_pos (by omega)]
      simp [beBytes]
    omega
  have e := Ledger.addressItem_bytes a h
  cases a with
  | byron b => cases e
  | reward n c =>
    exfalso
    obtain ⟨y, rest, e, hcc⟩ := h
    simp only [Addr.bytes] at e
    injection e with e _
    subst e
    have k1 : ∀ z : UInt8, 8 ≤ ((0xe0 : UInt8) ||| z).toNat / 16 := forall_byte (by decide +kernel)
    have := k1 (c.kind <<< 4 ||| (n.networkId &&& 0xf))
    rw [← UInt8.or_assoc] at this
    omega
  | base _ _ _ => exact ⟨_, rfl, hw⟩
  | enterprise _ _ => exact ⟨_, rfl, hw⟩
  | pointer _ _ _ => exact ⟨_, rfl, hw⟩

/-- **C125, exactly.** One key, `AddChangeIfNeeded`, `Build`: fee and least fee of the ledger for the bytes differ by the price of the bytes by which address and amount of
the change are shorter, or longer, than a base address and the amount that remains after 200000 for the fee. -/
theorem C125_fee_exact (H : Hashes) (hH : H.Ok) (blake256 : Bytes → Bytes) (h256 : ∀ m, (blake256 m).length = 32)
    (s : Session) (key : Bytes) (fee : Nat) (bs : Bytes) (network slot : Nat)
    (hkeys : s.keys = [key]) (hf : s.Fits) (hch : OutputAddress (Addr.bytes s.change)) (hy : s.Yields (packageCrypto H blake256) fee bs)
    (hfix : 65536 ≤ s.protocol.txFeeFixed.toNat ∧ s.protocol.txFeeFixed.toNat < 2 ^ 31) (hper : s.protocol.txFeePerByte.toNat < 2 ^ 16)
    (hI : sumIn s.inputs < 2 ^ 64) (hcover : sumOut s.outputs + fee ≤ sumIn s.inputs) (hcover2 : sumOut s.outputs + 200000 ≤ sumIn s.inputs)
    (hmax : bs.length ≤ 16384) :
    let e := envOf s.protocol network slot
    fee + e.minFeeA * ((Addr.bytes s.change).length + uintSize (sumIn s.inputs - sumOut s.outputs - fee)) =
      e.minFeeA * bs.length + e.minFeeB + e.minFeeA * (57 + uintSize (sumIn s.inputs - sumOut s.outputs - 200000)) := by
  obtain ⟨t, hb, rfl⟩ := hy
  obtain ⟨m, x, hm, -⟩ := goodMetadata_enc _ hf.metadata
  have eI : s.builder.body.inputs = s.inputs := by simp [Session.builder, setMetadata, SetTTL, AddOutputs, AddInputs, NewTxBuilder]
  have eO : s.builder.body.outputs = s.outputs := by simp [Session.builder, setMetadata, SetTTL, AddOutputs, AddInputs, NewTxBuilder]
  have eK : s.builder.xprvs ++ [] = [key] := by rw [List.append_nil]; exact hkeys
  have hreg : Regular (packageCrypto H blake256) s.builder :=
    ⟨h256, package_key_length H blake256, package_sig_length H hH blake256, ⟨m.length, fun k => ⟨m, hm k, rfl⟩⟩, fun _ => rfl, fun w hw => by cases hw⟩
  obtain ⟨ab, hab, hl⟩ := outputAddress_written _ hch
  have h := C20_exact (packageCrypto H blake256) s.builder s.change [] t bs ab hb hreg
    (by rw [eK]; rfl) (by show List.length [] ≤ _; decide) (by rw [eO]; exact hf.outputs) hab (by rw [eI]; exact hI) (by rw [eI, eO]; exact hcover)
    (by rw [eI, eO]; exact hcover2) hfix.1 hfix.2 hper hmax
  rw [eI, eO, hl, show s.builder.protocol = s.protocol from rfl] at h
  dsimp only [envOf]
  unfold linearFee at h
  simp only [Nat.mul_add] at h ⊢
  omega

/-- **C125 (partial).** Then the fee is at most the least fee that the ledger asks for these bytes, plus the price of the bytes by which the change address is shorter than a base
address, plus the price of 8 bytes; without these 8 if the fee is not above 200000. Missing: that it is not above the least fee; see the last theorem. -/
theorem C125_fee_at_most_partial (H : Hashes) (hH : H.Ok) (blake256 : Bytes → Bytes) (h256 : ∀ m, (blake256 m).length = 32)
    (s : Session) (key : Bytes) (fee : Nat) (bs : Bytes) (network slot : Nat)
    (hkeys : s.keys = [key]) (hf : s.Fits) (hch : OutputAddress (Addr.bytes s.change)) (hy : s.Yields (packageCrypto H blake256) fee bs)
    (hfix : 65536 ≤ s.protocol.txFeeFixed.toNat ∧ s.protocol.txFeeFixed.toNat < 2 ^ 31) (hper : s.protocol.txFeePerByte.toNat < 2 ^ 16)
    (hI : sumIn s.inputs < 2 ^ 64) (hcover : sumOut s.outputs + fee ≤ sumIn s.inputs) (hcover2 : sumOut s.outputs + 200000 ≤ sumIn s.inputs)
    (hmax : bs.length ≤ 16384) :
    let e := envOf s.protocol network slot
    fee ≤ e.minFeeA * bs.length + e.minFeeB + e.minFeeA * (57 - (Addr.bytes s.change).length) + (if fee ≤ 200000 then 0 else e.minFeeA * 8) := by
  have h := C125_fee_exact H hH blake256 h256 s key fee bs network slot hkeys hf hch hy hfix hper hI hcover hcover2 hmax
  dsimp only at h ⊢
  generalize (envOf s.protocol network slot).minFeeA = A at *
  generalize (envOf s.protocol network slot).minFeeB = B at *
  generalize hu : uintSize (sumIn s.inputs - sumOut s.outputs - fee) = x at *
  generalize hp : uintSize (sumIn s.inputs - sumOut s.outputs - 200000) = y at *
  have bx := uintSize_le (sumIn s.inputs - sumOut s.outputs - fee)
  have by' := uintSize_le (sumIn s.inputs - sumOut s.outputs - 200000)
  rw [hu] at bx
  rw [hp] at by'
  generalize (Addr.bytes s.change).length = len at *
  have hlen : A * 57 ≤ A * (57 - len) + A * len := by
    rw [← Nat.mul_add]; exact Nat.mul_le_mul_left _ (by omega)
  simp only [Nat.mul_add] at h
  split
  · rename_i c
    have hxy : y ≤ x := by
      rw [← hu, ← hp]
      exact uintSize_mono (by omega)
    have := Nat.mul_le_mul_left A hxy
    omega
  · have hxy : y ≤ x + 8 := by omega
    have := Nat.mul_le_mul_left A hxy
    rw [Nat.mul_add] at this
    omega

/-- **C125: change to a base address.** If the fee is not above 200000 it is not above the least fee of the ledger, and if the amount of the change is not written in more
bytes than what remains after 200000, it is that fee exactly. -/
theorem C125_base_address (H : Hashes) (hH : H.Ok) (blake256 : Bytes → Bytes) (h256 : ∀ m, (blake256 m).length = 32)
    (s : Session) (key : Bytes) (fee : Nat) (bs : Bytes) (network slot : Nat) (n : NetworkInfo) (c d : Cred) (hc : s.change = .base n c d)
    (hkeys : s.keys = [key]) (hf : s.Fits) (hch : OutputAddress (Addr.bytes s.change)) (hy : s.Yields (packageCrypto H blake256) fee bs)
    (hfix : 65536 ≤ s.protocol.txFeeFixed.toNat ∧ s.protocol.txFeeFixed.toNat < 2 ^ 31) (hper : s.protocol.txFeePerByte.toNat < 2 ^ 16)
    (hI : sumIn s.inputs < 2 ^ 64) (hcover : sumOut s.outputs + fee ≤ sumIn s.inputs) (hcover2 : sumOut s.outputs + 200000 ≤ sumIn s.inputs)
    (hmax : bs.length ≤ 16384) (hfee : fee ≤ 200000) :
    let e := envOf s.protocol network slot
    fee ≤ e.minFeeA * bs.length + e.minFeeB ∧
      (uintSize (sumIn s.inputs - sumOut s.outputs - fee) ≤ uintSize (sumIn s.inputs - sumOut s.outputs - 200000) → fee = e.minFeeA * bs.length + e.minFeeB) := by
  have h := C125_fee_exact H hH blake256 h256 s key fee bs network slot hkeys hf hch hy hfix hper hI hcover hcover2 hmax
  have hl : (Addr.bytes s.change).length = 57 := by rw [hc]; simp [Addr.bytes, copyZ_length]
  dsimp only at h ⊢
  rw [hl] at h
  have hxy := Nat.mul_le_mul_left (envOf s.protocol network slot).minFeeA
    (uintSize_mono (show sumIn s.inputs - sumOut s.outputs - 200000 ≤ sumIn s.inputs - sumOut s.outputs - fee by omega))
  simp only [Nat.mul_add] at h
  refine ⟨by omega, fun hw => ?_⟩
  have := Nat.mul_le_mul_left (envOf s.protocol network slot).minFeeA hw
  omega

/-- **C125 is false for change to an enterprise address**: the fee estimate counts a base address, and the user pays the price of 28 bytes too much (44 · 28 = 1232
lovelace on mainnet). -/
theorem C125_enterprise_overpays (H : Hashes) (hH : H.Ok) (blake256 : Bytes → Bytes) (h256 : ∀ m, (blake256 m).length = 32)
    (s : Session) (key : Bytes) (fee : Nat) (bs : Bytes) (network slot : Nat) (n : NetworkInfo) (c : Cred) (hc : s.change = .enterprise n c)
    (hkeys : s.keys = [key]) (hf : s.Fits) (hch : OutputAddress (Addr.bytes s.change)) (hy : s.Yields (packageCrypto H blake256) fee bs)
    (hfix : 65536 ≤ s.protocol.txFeeFixed.toNat ∧ s.protocol.txFeeFixed.toNat < 2 ^ 31) (hper : s.protocol.txFeePerByte.toNat < 2 ^ 16)
    (hI : sumIn s.inputs < 2 ^ 64) (hcover : sumOut s.outputs + fee ≤ sumIn s.inputs) (hcover2 : sumOut s.outputs + 200000 ≤ sumIn s.inputs)
    (hmax : bs.length ≤ 16384)
    (hwidth : uintSize (sumIn s.inputs - sumOut s.outputs - fee) = uintSize (sumIn s.inputs - sumOut s.outputs - 200000)) :
    let e := envOf s.protocol network slot
    fee = e.minFeeA * bs.length + e.minFeeB + 28 * e.minFeeA := by
  have h := C125_fee_exact H hH blake256 h256 s key fee bs network slot hkeys hf hch hy hfix hper hI hcover hcover2 hmax
  have hl : (Addr.bytes s.change).length = 29 := by rw [hc]; simp [Addr.bytes, copyZ_length]
  dsimp only at h ⊢
  rw [hl, hwidth] at h
  simp only [Nat.mul_add] at h
  omega

/-! ### Examples -/

/-- The calls of the examples: 10 ada in, 5 ada out, valid before slot 1000, change to `a`. -/
def askedOps (a : Address) : List Op :=
  [.setTTL 7, .addInputs [⟨List.replicate 32 7, 0, 10000000⟩], .addOutputs [⟨.base MainNet goldenPayment goldenStake, 5000000⟩], .setTTL 1000, .setMetadata none, .addChange a]

/-- The same as a session. -/
def askedSession (a : Address) : Session := { sampleSession [sampleKey] 10000000 5000000 a with ttl := 1000 }

theorem asked_run (C : Crypto) (a : Address) :
    run C (NewTxBuilder ⟨44, 155381, 16384, 1000000⟩ [sampleKey]) (askedOps a) = AddChangeIfNeeded C (askedSession a).builder a := rfl

theorem asked_fee (H : Hashes) (blake256 : Bytes → Bytes) (a : Address) : (MinFee (packageCrypto H blake256) (askedSession a).builder).1 = 168053 := by
  have : (MinFee (packageCrypto H blake256) (SetTTL (sampleSession [sampleKey] 10000000 5000000 sampleAddr).builder 1000)).1 =
      (MinFee sampleCrypto (SetTTL (sampleSession [] 10000000 5000000 sampleAddr).builder 1000)).1 := rfl
  rw [show (askedSession a).builder = SetTTL (sampleSession [sampleKey] 10000000 5000000 sampleAddr).builder 1000 from rfl]
  rw [this]; decide +kernel

theorem asked_length (H : Hashes) (hH : H.Ok) (bl : Bytes → Bytes) (a : Address) (bs : Bytes) (hy : (askedSession a).Yields (packageCrypto H bl) 168053 bs) :
    ∃ body, marshalBody ⟨[⟨List.replicate 32 7, 0, 10000000⟩], [⟨.base MainNet goldenPayment goldenStake, 5000000⟩, ⟨a, 4831947⟩], 168053, 1000, []⟩ = .ok body ∧
      bs.length = 107 + body.length := by
  obtain ⟨t, hb, hft⟩ := hy
  obtain ⟨hbody, hval, body, h1, h2, h3⟩ := built_parts (packageCrypto H bl) _ _ _ t bs encNil hb (fun _ => rfl)
  rw [asked_fee] at hbody
  have hbody : t.body = ⟨[⟨List.replicate 32 7, 0, 10000000⟩], [⟨.base MainNet goldenPayment goldenStake, 5000000⟩, ⟨a, 4831947⟩], 168053, 1000, []⟩ := by
    rw [show (4831947 : UInt64) = totalIn [⟨List.replicate 32 7, 0, 10000000⟩] - totalOut [⟨.base MainNet goldenPayment goldenStake, 5000000⟩] - 168053 by decide +kernel]
    exact hbody
  rw [hbody] at h1
  refine ⟨body, h1, ?_⟩
  have h3' := witnessesOf_lengths _ (package_key_length H bl) (package_sig_length H hH bl) _ _ _ h3
  have hk' : (askedSession a).builder.xprvs ++ [] = [sampleKey] := rfl
  rw [hk'] at h3'
  have hw := witness_length t.witness h3'.2 (by rw [h3'.1]; exact (by decide : 1 < 2 ^ 63))
  rw [h3'.1] at hw
  have hw : (marshalWitness t.witness).length = 104 := hw
  have hbl : (encBool t.valid).length = 1 := by rw [hval]; rfl
  have hn : encNil.length = 1 := rfl
  rw [h2, List.length_cons, List.length_append, List.length_append, List.length_append, hbl, hn, hw]
  omega

/-- C123 and C124: the ledger accepts the transaction of the example in slot 999. -/
theorem asked_accepted (H : Hashes) (hH : H.Ok) (blake224 blake256 : Bytes → Bytes) (h256 : ∀ m, (blake256 m).length = 32) :
    ∃ u h b' k bs v, BuilderFits (run (packageCrypto H blake256) (NewTxBuilder ⟨44, 155381, 16384, 1000000⟩ [sampleKey]) (askedOps sampleAddr)) ∧
      Build (packageCrypto H blake256) (run (packageCrypto H blake256) (NewTxBuilder ⟨44, 155381, 16384, 1000000⟩ [sampleKey]) (askedOps sampleAddr)) = (.ok h, b') ∧
      bytes (packageCrypto H blake256) (view b' h) k = .ok bs ∧ read bs = some v ∧
      Ledger.Accepts (ledgerCrypto H blake224 blake256) (envOf ⟨44, 155381, 16384, 1000000⟩ 1 999) u v ∧ AsksTTL (askedOps sampleAddr) 1000 := by
  obtain ⟨bs, hy⟩ := variant_yields H hH blake256 (askedSession sampleAddr) rfl (by intro k h; exact List.mem_singleton.1 h)
    (by intro o h; rw [List.mem_singleton.1 h]) ⟨_, rfl⟩ _ (asked_fee H blake256 sampleAddr)
  obtain ⟨_, pk, -, s2, -⟩ := C37_signature_valid H hH sampleKey sampleKey_ok.1 sampleKey_ok.2 []
  have p1 := packageCrypto_publicKey H blake256 sampleKey sampleKey_ok.1 sampleKey_ok.2
  rw [s2] at p1
  have hlen : bs.length ≤ 16384 := by
    obtain ⟨body, e1, e2⟩ := asked_length H hH blake256 sampleAddr bs hy
    have e3 : sizeOf? (marshalBody ⟨[⟨List.replicate 32 7, 0, 10000000⟩], [⟨.base MainNet goldenPayment goldenStake, 5000000⟩, ⟨sampleAddr, 4831947⟩], 168053, 1000, []⟩) = some 181 := by
      decide +kernel
    rw [e1] at e3
    injection e3 with e3
    rw [e2, e3]
    decide
  obtain ⟨v, hr, ha, -⟩ := C77_ledger_accepts_partial H hH blake224 blake256 h256 (askedSession sampleAddr) sampleKey pk
    (sampleUTxO blake224 pk 10000000) 1 999 168053 bs rfl sampleKey_ok p1
    ⟨by intro i hi; rw [List.mem_singleton.1 hi]; decide, by
      intro i hi; rw [List.mem_singleton.1 hi]
      exact ⟨_, if_pos rfl, pk, List.mem_singleton.2 rfl, 0x61, [], by rw [List.append_nil], by decide⟩⟩
    (by decide) (by decide) (by decide : 1 < 2 ^ 63)
    (by intro o ho; rw [List.mem_singleton.1 ho]; exact ⟨⟨by decide +kernel, _, _, rfl, by decide +kernel⟩, by decide +kernel⟩)
    (by decide : 1 < 2 ^ 32) ⟨by decide +kernel, _, _, rfl, by decide +kernel⟩ (.inl rfl) (fun _ => by decide) hy
    ⟨by decide, by decide, by decide, .inr (by decide +kernel), by decide +kernel, by decide⟩ (by decide) (by decide) hlen
  obtain ⟨t, hb, -⟩ := hy
  obtain ⟨h, b', k, e1, e2, e3⟩ := hb.run
  refine ⟨_, h, b', k, bs, v, ?_, e1, by rw [e2]; exact e3, hr, ha,
    .inl ⟨[.setTTL 7, .addInputs [⟨List.replicate 32 7, 0, 10000000⟩], .addOutputs [⟨.base MainNet goldenPayment goldenStake, 5000000⟩]], [.setMetadata none, .addChange sampleAddr], rfl, ?_⟩⟩
  · have hb : (run (packageCrypto H blake256) (NewTxBuilder ⟨44, 155381, 16384, 1000000⟩ [sampleKey]) (askedOps sampleAddr)).body =
        ⟨[⟨List.replicate 32 7, 0, 10000000⟩], [⟨.base MainNet goldenPayment goldenStake, 5000000⟩, ⟨sampleAddr, 4831947⟩], 168053, 1000, []⟩ := by
      rw [asked_run, addChange_eq, asked_fee]; rfl
    refine order_fits _ ?_ ?_ ?_ ?_ ?_ (by rw [asked_run]; exact (by decide : 1 < 100)) (.inl rfl) <;> rw [hb]
    · intro i hi; rw [List.mem_singleton.1 hi]; decide
    · exact (by decide : 1 < 100)
    · exact (by decide : 2 < 100)
    · intro o ho
      simp only [List.mem_cons, List.not_mem_nil, or_false] at ho
      rcases ho with h | h <;> rw [h]
      · exact .inl rfl
      · exact .inr rfl
  · intro op hop n' e
    rcases List.mem_cons.1 hop with h | h
    · rw [h] at e; cases e
    · rw [List.mem_singleton.1 h] at e; cases e

/-- C125: change to a base address, and to an enterprise address. -/
example (H : Hashes) (hH : H.Ok) (blake256 : Bytes → Bytes) (a : Address) (ha : a = sampleAddr ∨ a = .enterprise MainNet goldenPayment) :
    ∃ bs, (askedSession a).Yields (packageCrypto H blake256) 168053 bs ∧ (askedSession a).Fits ∧ OutputAddress (Addr.bytes a) ∧ bs.length ≤ 16384 ∧
      sumOut (askedSession a).outputs + 200000 ≤ sumIn (askedSession a).inputs ∧ (168053 : Nat) ≤ 200000 ∧
      uintSize (sumIn (askedSession a).inputs - sumOut (askedSession a).outputs - 168053) = uintSize (sumIn (askedSession a).inputs - sumOut (askedSession a).outputs - 200000) := by
  obtain ⟨bs, hy⟩ := variant_yields H hH blake256 (askedSession a) rfl (by intro k h; exact List.mem_singleton.1 h)
    (by intro o h; rw [List.mem_singleton.1 h]) (by rcases ha with rfl | rfl <;> exact ⟨_, rfl⟩) _ (asked_fee H blake256 a)
  have hlen : bs.length ≤ 16384 := by
    obtain ⟨body, e1, e2⟩ := asked_length H hH blake256 a bs hy
    have e3 : ∃ n, n ≤ 1000 ∧
        sizeOf? (marshalBody ⟨[⟨List.replicate 32 7, 0, 10000000⟩], [⟨.base MainNet goldenPayment goldenStake, 5000000⟩, ⟨a, 4831947⟩], 168053, 1000, []⟩) = some n := by
      rcases ha with rfl | rfl
      · exact ⟨181, by decide, by decide +kernel⟩
      · exact ⟨153, by decide, by decide +kernel⟩
    obtain ⟨n, hn, e3⟩ := e3
    rw [e1] at e3
    injection e3 with e3
    rw [e2, e3]
    omega
  have hfit : AddressFits a := by
    rcases ha with rfl | rfl
    · exact (by decide +kernel : (Addr.bytes sampleAddr).length < 2 ^ 63)
    · exact (by decide +kernel : (Addr.bytes (.enterprise MainNet goldenPayment)).length < 2 ^ 63)
  have hf := sample_fits [sampleKey] (by decide : 1 < 2 ^ 63) 10000000 5000000 a hfit
  refine ⟨bs, hy, ⟨hf.inputs, hf.outputs, hf.keys, hf.ids, hf.addrs, hf.change, hf.metadata⟩, ?_, hlen, (by decide : 5000000 + 0 + 200000 ≤ 10000000 + 0), by decide, ?_⟩
  · rcases ha with rfl | rfl <;> decide +kernel
  · show uintSize (10000000 + 0 - (5000000 + 0) - 168053) = uintSize (10000000 + 0 - (5000000 + 0) - 200000)
    decide +kernel

end Cardano.Props
