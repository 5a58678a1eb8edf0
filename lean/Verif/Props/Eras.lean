import Verif.Props.Enough
/-!
# C145: the minimum amounts of later eras

The package knows the parameter `minUTxOValue` of Shelley, and `Ledger/Spec` has the rule that goes with it. Since the Alonzo era the smallest amount of an output depends on its
size.
-/
set_option autoImplicit false

namespace Cardano.Ledger

/-- Size of the head of a CBOR item with argument `n` in shortest form (RFC 8949, section 3). -/
def headSize (n : Nat) : Nat := if n < 24 then 1 else if n < 256 then 2 else if n < 65536 then 3 else if n < 4294967296 then 5 else 9

/-- Size of an output `[address, coin]`. -/
def outSize (o : Out) : Nat := headSize 2 + (headSize o.1.length + o.1.length) + headSize o.2

/-- Alonzo: an output of ada alone without datum counts 27 + 2 words. -/
def MinAlonzo (coinsPerUTxOWord : Nat) (o : Out) : Prop := (27 + 2) * coinsPerUTxOWord ≤ o.2

/-- Babbage and Conway: the size of the output and 160 bytes. -/
def MinBabbage (coinsPerUTxOByte : Nat) (o : Out) : Prop := (160 + outSize o) * coinsPerUTxOByte ≤ o.2

/-- The ledger accepts these bytes, with another rule for the smallest amounts. -/
def ValidWith (min : Out → Prop) (C : Crypto) (e : Env) (u : UTxO) (bs : Bytes) : Prop :=
  ∃ t, read bs = some t ∧ Accepts C { e with minUTxOValue := 0 } u t ∧ ∀ o ∈ t.outputs, min o

end Cardano.Ledger

namespace Cardano.Props
open Cbor TxSpec Transaction TxBuilder Addr Bip32
open Ledger (read refOf outOf witOf Env UTxO OutputAddress outSize MinAlonzo MinBabbage ValidWith)

theorem headSize_le (n : Nat) : Ledger.headSize n ≤ 9 := by
  unfold Ledger.headSize
  repeat' split
  all_goals omega

theorem outSize_le (o : Ledger.Out) (h : OutputAddress o.1) : outSize o ≤ 71 := by
  obtain ⟨y, rest, e, hc⟩ := h
  have hl : o.1.length ≤ 59 := by rw [e, List.length_cons]; omega
  have h1 := headSize_le o.2
  have h2 : Ledger.headSize o.1.length ≤ 2 := by
    unfold Ledger.headSize
    repeat' split
    all_goals omega
  have h3 : Ledger.headSize 2 = 1 := by decide
  unfold outSize
  omega

/-- **C145, the size.** The package writes an output in exactly the bytes that the rule counts. -/
theorem C145_size (o : TxOutput) (h : OutputAddress (Addr.bytes o.address)) : ∃ b, marshalOutput o = .ok b ∧ b.length = outSize (outOf o) := by
  obtain ⟨ab, h1, h2⟩ := outputAddress_written _ h
  obtain ⟨b, h3, h4⟩ : ∃ b, marshalOutput o = .ok b ∧ b.length = 1 + ab.length + uintSize o.amount.toNat := by
    have hb : marshalOutput o = .ok (encArray [ab, encUint o.amount]) := by unfold marshalOutput; rw [h1]; rfl
    obtain ⟨ab', g1, g2⟩ := output_length o.address o.amount _ hb
    obtain rfl := Res.ok.inj (h1.symm.trans g1)
    exact ⟨_, hb, g2⟩
  refine ⟨b, h3, ?_⟩
  have e1 : Ledger.headSize o.amount.toNat = uintSize o.amount.toNat := by
    unfold Ledger.headSize uintSize
    rfl
  have e2 : Ledger.headSize (Addr.bytes o.address).length = 2 := by
    obtain ⟨y, rest, e, hc⟩ := h
    have : 24 ≤ (Addr.bytes o.address).length ∧ (Addr.bytes o.address).length < 256 := by rw [e, List.length_cons]; omega
    unfold Ledger.headSize
    repeat' split
    all_goals omega
  have e3 : Ledger.headSize 2 = 1 := by decide
  show b.length = Ledger.headSize 2 + (Ledger.headSize (Addr.bytes o.address).length + (Addr.bytes o.address).length) + Ledger.headSize o.amount.toNat
  omega

/-- The outputs that the ledger reads have addresses. -/
theorem read_addresses (bs : Bytes) (v : Ledger.TxView) (h : read bs = some v) : ∀ o ∈ v.outputs, OutputAddress o.1 := by
  have hro : ∀ x o, Ledger.readOutput x = some o → OutputAddress o.1 := by
    intro x o h
    unfold Ledger.readOutput at h
    split at h
    · split at h
      · rename_i c
        injection h with h
        rw [← h]; exact c.1
      · cases h
    · cases h
  have hall : ∀ l os, Ledger.all Ledger.readOutput l = some os → ∀ o ∈ os, OutputAddress o.1 := by
    intro l
    induction l with
    | nil => intro os h; injection h with h; subst h; exact nofun
    | cons x l ih =>
      intro os h
      rw [Ledger.all] at h
      split at h
      · rename_i a as h1 h2
        injection h with h
        subst h
        intro o ho
        rcases List.mem_cons.1 ho with rfl | ho
        · exact hro _ _ h1
        · exact ih _ h2 o ho
      · cases h
  unfold Ledger.read at h
  cases bs with
  | nil => cases h
  | cons y r0 =>
    dsimp only at h
    split at h
    swap
    · cases h
    simp only [Option.bind_eq_bind, Option.bind_eq_some_iff] at h
    obtain ⟨⟨b, r1⟩, h1, ⟨w, r2⟩, h2, ⟨f, r3⟩, h3, ⟨a, r4⟩, h4, h⟩ := h
    dsimp only at h
    split at h
    swap
    · cases h
    unfold Ledger.assemble at h
    simp only [Option.bind_eq_bind, Option.bind_eq_some_iff] at h
    obtain ⟨ps, g0, ins, g1, outs, g2, fee, g3, ttl, g4, aux, g5, ws, -, wits, -, ax, -, h⟩ := h
    have key : v.outputs = outs := by
      split at h
      · injection h with h; rw [← h]
      · cases h
    rw [key]
    unfold Ledger.field at g2
    simp only [Option.bind_eq_some_iff] at g2
    obtain ⟨i, -, l, -, g2⟩ := g2
    exact hall _ _ g2

/-- **C145.** Whatever bytes the ledger of Shelley accepts, the later ones accept too, if 29 words and 231 bytes cost no more than its `minUTxOValue`. -/
theorem C145_later (C : Ledger.Crypto) (e : Env) (u : UTxO) (bs : Bytes) (word byte : Nat) (h : Ledger.Valid C e u bs) :
    (29 * word ≤ e.minUTxOValue → ValidWith (MinAlonzo word) C e u bs) ∧ (231 * byte ≤ e.minUTxOValue → ValidWith (MinBabbage byte) C e u bs) := by
  obtain ⟨v, hr, ha⟩ := h
  have h0 : Ledger.Accepts C { e with minUTxOValue := 0 } u v :=
    ⟨ha.ttl, ha.nonempty, ha.exist, ha.fee, ha.conserved, fun _ _ => Nat.zero_le _, ha.network, ha.size, ha.signatures, ha.unlocked, ha.aux⟩
  refine ⟨fun hw => ⟨v, hr, h0, fun o ho => ?_⟩, fun hb => ⟨v, hr, h0, fun o ho => ?_⟩⟩
  · exact Nat.le_trans hw (ha.minimum o ho)
  · have h1 := outSize_le o (read_addresses bs v hr o ho)
    have h2 : (160 + outSize o) * byte ≤ 231 * byte := Nat.mul_le_mul_right _ (by omega)
    exact Nat.le_trans (Nat.le_trans h2 hb) (ha.minimum o ho)

/-- **C145, the main network.** A payment as in C136 with `MinUTXOValue` 1000000, the value of Shelley: it is accepted with the parameters of Alonzo (34482 for a word) and with
those in use today (4310 for a byte). -/
theorem C145_main_network (H : Hashes) (hH : H.Ok) (blake224 blake256 : Bytes → Bytes) (h256 : ∀ m, (blake256 m).length = 32)
    (s : Session) (key pk : Bytes) (u : UTxO) (network slot : Nat) (m : Bytes)
    (hkeys : s.keys = [key]) (hk : key.length = 96 ∧ leNat (key.take 32) < 2 ^ 255) (hpk : (packageCrypto H blake256).publicKey key = .ok pk)
    (hu : Agrees blake224 u [pk] s.inputs) (hne : s.inputs ≠ []) (hdis : (s.inputs.map refOf).Nodup)
    (hout : ∀ o ∈ s.outputs, Receives network (Addr.bytes o.address) ∧ 1000000 ≤ o.amount.toNat)
    (hch : Receives network (Addr.bytes s.change)) (hcs : (Addr.bytes s.change).length ≤ 57)
    (hmd : GoodMetadata s.metadata) (hm : ∀ k, marshalMetadata s.metadata k = .ok m) (httl : s.ttl ≠ 0 → slot < s.ttl.toNat)
    (hp : s.protocol = ⟨44, 155381, 16384, 1000000⟩) (hI : sumIn s.inputs < 2 ^ 64)
    (hN : atMost s.inputs.length (s.outputs.length + 1) 1 m.length ≤ 16384)
    (hcover : sumOut s.outputs + (155381 + 44 * atMost s.inputs.length (s.outputs.length + 1) 1 m.length) + 1000000 ≤ sumIn s.inputs)
    (hwidth : sumIn s.inputs < sumOut s.outputs + 2 ^ 32 ∨ sumOut s.outputs + 2 ^ 32 + 200000 ≤ sumIn s.inputs) :
    ∃ fee bs, s.Yields (packageCrypto H blake256) fee bs ∧
      ValidWith (MinAlonzo 34482) (ledgerCrypto H blake224 blake256) (envOf s.protocol network slot) u bs ∧
      ValidWith (MinBabbage 4310) (ledgerCrypto H blake224 blake256) (envOf s.protocol network slot) u bs := by
  have e1 : s.protocol.txFeePerByte.toNat = 44 := by rw [hp]; decide
  have e2 : s.protocol.txFeeFixed.toNat = 155381 := by rw [hp]; decide
  have e3 : s.protocol.maxTxSize.toNat = 16384 := by rw [hp]; decide
  have e4 : s.protocol.minUTXOValue.toNat = 1000000 := by rw [hp]; decide
  obtain ⟨fee, bs, v, hy, hr, ha, -⟩ := C136_enough H hH blake224 blake256 h256 s key pk u network slot m hkeys hk hpk hu hne hdis
    (fun o ho => ⟨(hout o ho).1, by rw [e4]; exact (hout o ho).2⟩) hch hcs hmd hm httl (by rw [e2]; decide) (by rw [e1]; decide) (by rw [e3]) (by rw [e4]; decide) hI
    (by rw [e3]; exact hN) (by rw [e1, e2, e4]; exact hcover) (by omega) hwidth
  have hmin : (envOf s.protocol network slot).minUTxOValue = 1000000 := e4
  obtain ⟨h1, h2⟩ := C145_later (ledgerCrypto H blake224 blake256) (envOf s.protocol network slot) u bs 34482 4310 ⟨v, hr, ha⟩
  exact ⟨fee, bs, hy, h1 (by rw [hmin]; decide), h2 (by rw [hmin]; decide)⟩

/-- **C145, the parameter does not protect.** Whatever `MinUTXOValue` is, `Build` succeeds for amounts that these rules reject: an output, or the change, below the price of its size
is not accepted. -/
theorem C145_rejected (H : Hashes) (hH : H.Ok) (blake224 blake256 : Bytes → Bytes) (h256 : ∀ m, (blake256 m).length = 32)
    (s : Session) (u : UTxO) (e : Env) (fee : Nat) (bs : Bytes) (byte : Nat) (hf : s.Fits) (hy : s.Yields (packageCrypto H blake256) fee bs)
    (hI : sumIn s.inputs < 2 ^ 64) (hcover : sumOut s.outputs + fee ≤ sumIn s.inputs)
    (hlow : (∃ o ∈ s.outputs, o.amount.toNat < (160 + outSize (outOf o)) * byte) ∨
      sumIn s.inputs - sumOut s.outputs - fee < (160 + outSize (Addr.bytes s.change, sumIn s.inputs - sumOut s.outputs - fee)) * byte) :
    ¬ ValidWith (MinBabbage byte) (ledgerCrypto H blake224 blake256) e u bs := by
  rintro ⟨v, hv, -, hmin⟩
  obtain ⟨-, ⟨c, hc, h2⟩, -⟩ := session_read H hH blake256 h256 s fee bs hf hy v hv
  rw [change_toNat _ _ _ hI hcover] at hc
  rw [h2] at hmin
  rcases hlow with ⟨o, ho, hlt⟩ | hlt
  · have := hmin (outOf o) (List.mem_append_left _ (List.mem_map_of_mem ho))
    unfold MinBabbage at this
    have e : (outOf o).2 = o.amount.toNat := rfl
    omega
  · have := hmin _ (List.mem_append_right _ List.mem_cons_self)
    unfold MinBabbage at this
    have e : outOf ⟨s.change, c⟩ = (Addr.bytes s.change, sumIn s.inputs - sumOut s.outputs - fee) := by
      unfold outOf
      dsimp only
      rw [hc]
    rw [e] at this
    dsimp only at this
    omega

/-- C145: 10 ada in, 5 ada out, accepted by the later ledgers. -/
example (H : Hashes) (hH : H.Ok) (blake224 blake256 : Bytes → Bytes) (h256 : ∀ m, (blake256 m).length = 32) :
    ∃ pk fee bs, (sampleSession [sampleKey] 10000000 5000000 sampleAddr).Yields (packageCrypto H blake256) fee bs ∧
      ValidWith (MinAlonzo 34482) (ledgerCrypto H blake224 blake256) ⟨44, 155381, 16384, 1000000, 1, 0⟩ (sampleUTxO blake224 pk 10000000) bs ∧
      ValidWith (MinBabbage 4310) (ledgerCrypto H blake224 blake256) ⟨44, 155381, 16384, 1000000, 1, 0⟩ (sampleUTxO blake224 pk 10000000) bs := by
  obtain ⟨_, pk, -, s2, -⟩ := C37_signature_valid H hH sampleKey sampleKey_ok.1 sampleKey_ok.2 []
  have p1 := packageCrypto_publicKey H blake256 sampleKey sampleKey_ok.1 sampleKey_ok.2
  rw [s2] at p1
  obtain ⟨fee, bs, h1, h2, h3⟩ := C145_main_network H hH blake224 blake256 h256 (sampleSession [sampleKey] 10000000 5000000 sampleAddr) sampleKey pk
    (sampleUTxO blake224 pk 10000000) 1 0 [0xf6] rfl sampleKey_ok p1
    ⟨by intro i hi; rw [List.mem_singleton.1 hi]; decide, by
      intro i hi
      rw [List.mem_singleton.1 hi]
      exact ⟨_, if_pos rfl, pk, List.mem_singleton.2 rfl, 0x61, [], by rw [List.append_nil], by decide⟩⟩
    (by decide) (by decide)
    (by intro o ho; rw [List.mem_singleton.1 ho]; exact ⟨⟨by decide +kernel, _, _, rfl, by decide +kernel⟩, by decide +kernel⟩)
    ⟨by decide +kernel, _, _, rfl, by decide +kernel⟩ (by decide +kernel) (.inl rfl) (fun _ => rfl) (fun h => absurd rfl h) rfl (by decide) (by decide) (by decide) (by decide)
  exact ⟨pk, fee, bs, h1, h2, h3⟩

/-- C145: 0.9 ada to a base address, or 0.83 ada change, is too little today (0.96975 ada is the least). -/
example (H : Hashes) (hH : H.Ok) (blake256 : Bytes → Bytes) :
    (∃ (s : Session) (fee : Nat) (bs : Bytes), s.Fits ∧ s.Yields (packageCrypto H blake256) fee bs ∧ sumIn s.inputs < 2 ^ 64 ∧ sumOut s.outputs + fee ≤ sumIn s.inputs ∧
      ∃ o ∈ s.outputs, o.amount.toNat < (160 + outSize (outOf o)) * 4310) ∧
    ∃ (s : Session) (fee : Nat) (bs : Bytes), s.Fits ∧ s.Yields (packageCrypto H blake256) fee bs ∧ sumIn s.inputs < 2 ^ 64 ∧ sumOut s.outputs + fee ≤ sumIn s.inputs ∧
      sumIn s.inputs - sumOut s.outputs - fee < (160 + outSize (Addr.bytes s.change, sumIn s.inputs - sumOut s.outputs - fee)) * 4310 := by
  have hf : ∀ a b, (sampleSession [sampleKey] a b sampleAddr).Fits := fun a b =>
    sample_fits [sampleKey] (by decide : 1 < 2 ^ 63) a b sampleAddr (by decide +kernel : (Addr.bytes sampleAddr).length < 2 ^ 63)
  constructor
  · let s0 (ks : List Bytes) : Session := sampleSession ks 10000000 900000 sampleAddr
    have hfee : (MinFee (packageCrypto H blake256) (s0 [sampleKey]).builder).1 = 167877 := by
      have : (MinFee (packageCrypto H blake256) (s0 [sampleKey]).builder).1 = (MinFee sampleCrypto (s0 []).builder).1 := rfl
      rw [this]; decide +kernel
    obtain ⟨bs, hy⟩ := variant_yields H hH blake256 (s0 [sampleKey]) rfl (by intro k h; exact List.mem_singleton.1 h) (by intro o h; rw [List.mem_singleton.1 h]) ⟨_, rfl⟩ _ hfee
    exact ⟨_, _, bs, hf _ _, hy, by decide, by decide, _, List.mem_singleton.2 rfl, by decide +kernel⟩
  · let s0 (ks : List Bytes) : Session := sampleSession ks 10000000 9000000 sampleAddr
    have hfee : (MinFee (packageCrypto H blake256) (s0 [sampleKey]).builder).1 = 167877 := by
      have : (MinFee (packageCrypto H blake256) (s0 [sampleKey]).builder).1 = (MinFee sampleCrypto (s0 []).builder).1 := rfl
      rw [this]; decide +kernel
    obtain ⟨bs, hy⟩ := variant_yields H hH blake256 (s0 [sampleKey]) rfl (by intro k h; exact List.mem_singleton.1 h) (by intro o h; rw [List.mem_singleton.1 h]) ⟨_, rfl⟩ _ hfee
    exact ⟨_, _, bs, hf _ _, hy, by decide, by decide, by decide +kernel⟩

end Cardano.Props
