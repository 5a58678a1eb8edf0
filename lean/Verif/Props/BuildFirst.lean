import Verif.Props.Enough
/-!
# C138: several keys, with `Build` called before `AddChangeIfNeeded`

`MinFee` counts the witnesses that the transaction has, and one if it has none (C20). So a user with several keys who calls `Build` once before `AddChangeIfNeeded`, and
throws the result away, pays enough. Without that call the ledger rejects (C82).
-/
set_option autoImplicit false

namespace Cardano.Props
open Cbor TxSpec Transaction TxBuilder Addr Bip32
open Ledger (read refOf outOf witOf Env UTxO OutputAddress)

/-- `NewTxBuilder`, `AddInputs`, `AddOutputs`, `SetTTL`, metadata, `Build`, `AddChangeIfNeeded`, `Build`, `Bytes`: all succeed, with the bytes `bs` and the fee `fee`. -/
def Session.YieldsTwice (s : Session) (C : Crypto) (fee : Nat) (bs : Bytes) : Prop :=
  ∃ h0 b0 t, Build C s.builder = (.ok h0, b0) ∧ Built C b0 s.change [] t bs ∧ t.body.fee.toNat = fee

/-- The calls succeed. -/
theorem twice_succeeds (H : Hashes) (hH : H.Ok) (blake256 : Bytes → Bytes) (s : Session) (hmd : GoodMetadata s.metadata)
    (ho : ∀ o ∈ s.outputs, ∃ b, marshalAddress o.address = .ok b) (hc : ∃ b, marshalAddress s.change = .ok b)
    (hk : ∀ k ∈ s.keys, k.length = 96 ∧ leNat (k.take 32) < 2 ^ 255) :
    ∃ fee bs, s.YieldsTwice (packageCrypto H blake256) fee bs := by
  have eO : s.builder.body.outputs = s.outputs := by simp [Session.builder, setMetadata, SetTTL, AddOutputs, AddInputs, NewTxBuilder]
  obtain ⟨bs0, h0, b0, k0, e0, -⟩ := finish_succeeds H hH blake256 s.builder hmd (by rw [eO]; exact ho) hk
  obtain ⟨body, bb, ws, g1, -, -, -, g5⟩ := build_ok _ _ _ _ e0
  have eb : b0.body.outputs = s.outputs := by
    obtain ⟨-, o2, -⟩ := calcAux_outputs _ _ _ _ g1
    rw [g5, ← eO]; exact o2
  have em : b0.metadata = s.metadata := by rw [g5]; rfl
  have ek : b0.xprvs = s.keys := by rw [g5]; rfl
  obtain ⟨bs, h, b', k, e, eb'⟩ := finish_succeeds H hH blake256 (AddChangeIfNeeded (packageCrypto H blake256) b0 s.change) (by show GoodMetadata b0.metadata; rw [em]; exact hmd)
    (by
      intro o ho'
      have ho' : o ∈ b0.body.outputs ++ [_] := ho'
      rw [eb] at ho'
      rcases List.mem_append.1 ho' with h | h
      · exact ho o h
      · rw [List.mem_singleton.1 h]; exact hc) (by show ∀ k ∈ b0.xprvs, _; rw [ek]; exact hk)
  exact ⟨_, bs, h0, b0, view b' h, e0, ⟨h, b', k, e, rfl, eb'⟩, rfl⟩

/-- **C138.** As C136, for any number of keys up to 100: the builder succeeds and the ledger accepts, if `Build` is called before `AddChangeIfNeeded` and once more after it. -/
theorem C138_build_first (H : Hashes) (hH : H.Ok) (blake224 blake256 : Bytes → Bytes) (h256 : ∀ m, (blake256 m).length = 32)
    (s : Session) (pks : List Bytes) (u : UTxO) (network slot : Nat) (m : Bytes)
    (hkl : 0 < s.keys.length ∧ s.keys.length ≤ 100) (hk : ∀ k ∈ s.keys, k.length = 96 ∧ leNat (k.take 32) < 2 ^ 255)
    (hpk : ∀ pk ∈ pks, ∃ key ∈ s.keys, (packageCrypto H blake256).publicKey key = .ok pk)
    (hu : Agrees blake224 u pks s.inputs) (hne : s.inputs ≠ []) (hdis : (s.inputs.map refOf).Nodup)
    (hout : ∀ o ∈ s.outputs, Receives network (Addr.bytes o.address) ∧ s.protocol.minUTXOValue.toNat ≤ o.amount.toNat)
    (hch : Receives network (Addr.bytes s.change)) (hcs : (Addr.bytes s.change).length ≤ 57)
    (hmd : GoodMetadata s.metadata) (hm : ∀ k, marshalMetadata s.metadata k = .ok m) (httl : s.ttl ≠ 0 → slot < s.ttl.toNat)
    (hfix : 65536 ≤ s.protocol.txFeeFixed.toNat ∧ s.protocol.txFeeFixed.toNat < 2 ^ 31) (hper : s.protocol.txFeePerByte.toNat < 2 ^ 16)
    (hmax : s.protocol.maxTxSize.toNat ≤ 16384) (hI : sumIn s.inputs < 2 ^ 64)
    (hN : atMost s.inputs.length (s.outputs.length + 1) s.keys.length m.length ≤ s.protocol.maxTxSize.toNat)
    (hcover : sumOut s.outputs + (s.protocol.txFeeFixed.toNat + s.protocol.txFeePerByte.toNat * atMost s.inputs.length (s.outputs.length + 1) s.keys.length m.length) +
      s.protocol.minUTXOValue.toNat ≤ sumIn s.inputs)
    (hlow : sumOut s.outputs + 265536 ≤ sumIn s.inputs)
    (hwidth : sumIn s.inputs < sumOut s.outputs + 2 ^ 32 ∨ sumOut s.outputs + 2 ^ 32 + 200000 ≤ sumIn s.inputs) :
    ∃ fee bs v, s.YieldsTwice (packageCrypto H blake256) fee bs ∧ read bs = some v ∧
      Ledger.Accepts (ledgerCrypto H blake224 blake256) (envOf s.protocol network slot) u v ∧
      v.inputs = s.inputs.map refOf ∧ v.outputs = s.outputs.map outOf ++ [(Addr.bytes s.change, sumIn s.inputs - sumOut s.outputs - fee)] ∧ v.fee = fee ∧
      fee ≤ s.protocol.txFeeFixed.toNat + s.protocol.txFeePerByte.toNat * atMost s.inputs.length (s.outputs.length + 1) s.keys.length m.length ∧
      bs.length ≤ atMost s.inputs.length (s.outputs.length + 1) s.keys.length m.length := by
  have eI : s.builder.body.inputs = s.inputs := by simp [Session.builder, setMetadata, SetTTL, AddOutputs, AddInputs, NewTxBuilder]
  have eO : s.builder.body.outputs = s.outputs := by simp [Session.builder, setMetadata, SetTTL, AddOutputs, AddInputs, NewTxBuilder]
  generalize hNN : atMost s.inputs.length (s.outputs.length + 1) s.keys.length m.length = N at *
  have hn : s.inputs.length < 2 ^ 20 ∧ s.outputs.length < 2 ^ 20 := by
    unfold atMost at hNN
    omega
  obtain ⟨cab, hcab, hcabl⟩ := outputAddress_written _ hch.1
  obtain ⟨fee, bs, h0, b0, t, e0, hb, hf⟩ := twice_succeeds H hH blake256 s hmd (fun o ho => by
      obtain ⟨ab, h, -⟩ := outputAddress_written _ (hout o ho).1.1
      exact ⟨ab, h⟩) ⟨cab, hcab⟩ hk
  have hval := fun msg => witnessesOf_valid H hH blake256 msg s.keys hk
  have hkeyl := package_key_length H blake256
  have hsigl := package_sig_length H hH blake256
  have hCH : ∀ m, ((packageCrypto H blake256).blake256 m).length = 32 := h256
  have hbl : (packageCrypto H blake256).blake256 = blake256 := rfl
  refine ⟨fee, bs, ?_⟩
  suffices hS : ∃ v, read bs = some v ∧ Ledger.Accepts (ledgerCrypto H blake224 blake256) (envOf s.protocol network slot) u v ∧
      v.inputs = s.inputs.map refOf ∧ v.outputs = s.outputs.map outOf ++ [(Addr.bytes s.change, sumIn s.inputs - sumOut s.outputs - fee)] ∧ v.fee = fee ∧
      fee ≤ s.protocol.txFeeFixed.toNat + s.protocol.txFeePerByte.toNat * N ∧ bs.length ≤ N by
    obtain ⟨v, hv⟩ := hS
    exact ⟨v, ⟨h0, b0, t, e0, hb, hf⟩, hv⟩
  generalize packageCrypto H blake256 = C at *
  -- after the first `Build`
  obtain ⟨body0, bb0, ws0, g1, -, g3, -, g5⟩ := build_ok _ _ _ _ e0
  rw [calcAux_of C _ m _ (hm _)] at g1
  have g1 := Res.ok.inj g1
  obtain ⟨w0l, w0s⟩ := witnessesOf_lengths C hkeyl hsigl _ _ _ g3
  have w0l : ws0.length = s.keys.length := w0l
  have bI : b0.body.inputs = s.inputs := by rw [g5, ← g1]; exact eI
  have bO : b0.body.outputs = s.outputs := by rw [g5, ← g1]; exact eO
  have bT : b0.body.ttl = s.ttl := by rw [g5, ← g1]; rfl
  have bA : b0.body.auxHash = auxOf C s.metadata [] m := by rw [g5, ← g1]; rfl
  have bM : b0.metadata = s.metadata := by rw [g5]; rfl
  have bV : b0.valid = true := by rw [g5]; rfl
  have bK : b0.xprvs = s.keys := by rw [g5]; rfl
  have bP : b0.protocol = s.protocol := by rw [g5]; rfl
  have bW : witAt b0 b0.wit = ws0 := by rw [g5]; simp [witAt]
  have bN : b0.metadata = none → b0.body.auxHash = [] := by
    intro h
    rw [bA, ← bM, h]; rfl
  have fW : feeWits b0 = ws0 := by
    unfold feeWits
    rw [bW, if_neg (by omega)]
  have hm0 : ∀ k, marshalMetadata b0.metadata k = .ok m := by rw [bM]; exact hm
  -- the second
  obtain ⟨hbody, htv, body, h1, h2, h3⟩ := built_parts C b0 s.change [] t bs m hb hm0
  rw [List.append_nil, bK, hbl] at h3
  obtain ⟨wl, ws⟩ := witnessesOf_lengths C hkeyl hsigl _ _ _ h3
  have tF : t.body.fee = (MinFee C b0).1 := by rw [hbody]
  have tI : t.body.inputs = s.inputs := by rw [hbody]; exact bI
  have tT : t.body.ttl = s.ttl := by rw [hbody]; exact bT
  have tA : t.body.auxHash = auxOf C s.metadata [] m := by
    rw [hbody]
    show auxOf C b0.metadata b0.body.auxHash m = _
    rw [bA, bM]
    exact auxOf_idem _ _ _ _ _
  have tO : t.body.outputs = s.outputs ++ [⟨s.change, totalIn s.inputs - totalOut s.outputs - t.body.fee⟩] := by
    rw [tF, hbody]
    dsimp only
    rw [bO, bI]
  have tV : t.valid = true := htv.trans bV
  have tM : t.metadata = s.metadata := by
    obtain ⟨h, b', k, e, ev, eb⟩ := hb.run
    obtain ⟨_, _, _, -, -, -, g4, g5⟩ := build_ok C _ b' h e
    rw [← ev, view_build _ b' h _ _ g4 g5, foldl_sign]
    exact bM
  have hoa : ∀ o ∈ t.body.outputs, OutputAddress (Addr.bytes o.address) := by
    rw [tO]
    intro o ho
    rcases List.mem_append.1 ho with ho | ho
    · exact (hout o ho).1.1
    · rw [List.mem_singleton.1 ho]; exact hch.1
  have tOl : t.body.outputs.length = s.outputs.length + 1 := by rw [tO, List.length_append, List.length_singleton]
  have hax : t.body.auxHash = [] ∨ t.body.auxHash.length = 32 := by rw [tA]; exact (auxOf_size C hCH s.metadata [] m (.inl rfl)).1
  obtain ⟨h, b', k, e, ev, eb⟩ := hb.run
  -- the size
  have hsz : bs.length ≤ N := by
    have hx := C136_size C hCH t k m.length bs eb (by rw [tI]; exact hu.ids) hoa ws (by omega) (by rw [tM]; exact steady_of _ m hm) hax
    rw [tI, tOl, wl, hNN] at hx
    exact hx
  -- the fee
  have hfee : fee ≤ s.protocol.txFeeFixed.toNat + s.protocol.txFeePerByte.toNat * N := by
    obtain ⟨len, l1, l2⟩ := minFee_bound C hCH b0 m hm0 (by rw [bI]; exact hu.ids) (by rw [bO]; exact fun o ho => (hout o ho).1.1) s.keys.length (by omega)
      (by rw [fW]; exact w0s) (by rw [fW, w0l])
    rw [bI, bO, hNN] at l1
    have hlen : s.protocol.txFeePerByte.toNat * len ≤ s.protocol.txFeePerByte.toNat * N := Nat.mul_le_mul_left _ l1
    have hlim : s.protocol.txFeePerByte.toNat * N ≤ 2 ^ 16 * 16384 := Nat.mul_le_mul (by omega) (by omega)
    rw [← hf, tF, l2, bP, UInt64.toNat_add, UInt64.toNat_mul, ofNat64 _ (by omega)]
    rw [Nat.mod_eq_of_lt (a := s.protocol.txFeePerByte.toNat * len) (by omega), Nat.mod_eq_of_lt (by omega)]
    omega
  have hw : uintSize (sumIn s.inputs - sumOut s.outputs - fee) ≤ uintSize (sumIn s.inputs - sumOut s.outputs - 200000) := by
    rcases hwidth with h | h
    · have e1 : uintSize (sumIn s.inputs - sumOut s.outputs - 200000) = 5 := by
        unfold uintSize
        repeat' split
        all_goals omega
      rw [e1]
      unfold uintSize
      repeat' split
      all_goals omega
    · have e1 : uintSize (sumIn s.inputs - sumOut s.outputs - 200000) = 9 := by
        unfold uintSize
        repeat' split
        all_goals omega
      rw [e1]
      exact (uintSize_le _).2
  have hreg : Regular C b0 := ⟨hCH, hkeyl, hsigl, ⟨m.length, fun k => ⟨m, hm0 k, rfl⟩⟩, bN, by show StdWit (witAt b0 b0.wit); rw [bW]; exact w0s⟩
  have hfin := C20_fee_sufficient_partial C b0 s.change [] t bs cab hb hreg
    (by show _ ≤ max 1 (witAt b0 b0.wit).length; rw [bW, List.append_nil, bK, w0l]; exact Nat.le_max_right _ _)
    (by show (witAt b0 b0.wit).length ≤ _; rw [bW, w0l]; exact hkl.2) (by rw [bO]; omega) hcab (by omega)
    (by rw [bI]; exact hI) (by rw [bI, bO]; omega) (by rw [bI, bO, hf]; omega)
    (by rw [bI, bO, hf]; exact .inr hw) (by rw [bP]; exact hfix.1) (by rw [bP]; exact hfix.2) (by rw [bP]; exact hper) (by omega)
  rw [bP, hf] at hfin
  -- reading
  obtain ⟨b, body', aux, r1, r2, r3, r4, r5, r6, r7, r8, r9⟩ := hand_read C hCH t k bs (by rw [tM]; exact hmd) (by
      intro h
      rw [tA, ← tM, h]; rfl) tV (by rw [tI]; exact hu.ids) (by rw [tI]; omega) hoa (by rw [tOl]; omega) ws (by omega) eb
  have ebody : body' = body := by
    have : b = t.body := by
      have := r1 0
      rw [calcAux_of C t m 0 (by rw [tM]; exact hm 0)] at this
      have := Res.ok.inj this
      rw [← this, tM]
      have e2 : auxOf C s.metadata t.body.auxHash m = t.body.auxHash := by rw [tA]; exact auxOf_idem _ _ _ _ _
      rw [e2]
    rw [this, h1] at r2
    exact (Res.ok.inj r2).symm
  subst ebody
  have hcn : (totalIn s.inputs - totalOut s.outputs - t.body.fee).toNat = sumIn s.inputs - sumOut s.outputs - fee := by
    have := change_toNat s.inputs s.outputs fee hI (by omega)
    rw [← hf, UInt64.ofNat_toNat] at this
    rw [this, hf]
  obtain ⟨v1, v2⟩ := hval _ _ h3
  have hvo : b.outputs.map outOf = s.outputs.map outOf ++ [(Addr.bytes s.change, sumIn s.inputs - sumOut s.outputs - fee)] := by
    rw [r5, tO, List.map_append, ← hcn]; rfl
  refine ⟨_, r3, ?_, by rw [← tI, ← r4]; rfl, hvo, by rw [← hf, ← r6]; rfl, hfee, hsz⟩
  refine ⟨?_, ?_, ?_, ?_, ?_, ?_, ?_, Nat.le_trans hsz hN, ?_, ?_, ?_⟩
  · intro n hn
    have hn : (if b.ttl = 0 then none else some b.ttl.toNat) = some n := hn
    rw [r7, tT] at hn
    split at hn
    · cases hn
    · rename_i h0
      injection hn with hn
      rw [← hn]; exact httl h0
  · show b.inputs.map refOf ≠ []
    rw [r4, tI]
    intro h0
    exact hne (List.map_eq_nil_iff.1 h0)
  · intro r hr
    have hr : r ∈ b.inputs.map refOf := hr
    rw [r4, tI] at hr
    obtain ⟨i, hi, rfl⟩ := List.mem_map.1 hr
    obtain ⟨a, ha, -⟩ := hu.amounts i hi
    rw [ha]; rfl
  · show s.protocol.txFeePerByte.toNat * bs.length + s.protocol.txFeeFixed.toNat ≤ b.fee.toNat
    unfold linearFee at hfin
    rw [r6, hf]
    omega
  · show ∑ r ∈ (b.inputs.map refOf).toFinset, u.amount r = ((b.outputs.map outOf).map (·.2)).sum + b.fee.toNat
    rw [r4, tI, List.sum_toFinset _ hdis, amounts_sum u _ (fun i hi => by obtain ⟨a, ha, _⟩ := hu.amounts i hi; exact ⟨a, ha⟩), hvo, List.map_append, List.sum_append, sum_map_outOf, r6, hf]
    show _ = _ + (sumIn s.inputs - sumOut s.outputs - fee + 0) + fee
    omega
  · intro o ho
    have ho : o ∈ b.outputs.map outOf := ho
    rw [hvo] at ho
    rcases List.mem_append.1 ho with ho | ho
    · obtain ⟨o', ho', rfl⟩ := List.mem_map.1 ho
      exact (hout o' ho').2
    · rw [List.mem_singleton.1 ho]
      show s.protocol.minUTXOValue.toNat ≤ _
      dsimp only
      omega
  · intro o ho
    have ho : o ∈ b.outputs.map outOf := ho
    rw [hvo] at ho
    rcases List.mem_append.1 ho with ho | ho
    · obtain ⟨o', ho', rfl⟩ := List.mem_map.1 ho
      exact (hout o' ho').1.2
    · rw [List.mem_singleton.1 ho]
      exact hch.2
  · intro w' hw'
    obtain ⟨w, hw, rfl⟩ := List.mem_map.1 (show w' ∈ t.witness.map witOf from hw')
    exact v1 w hw
  · intro r hr o ho
    have hr : r ∈ b.inputs.map refOf := hr
    rw [r4, tI] at hr
    obtain ⟨i, hi, rfl⟩ := List.mem_map.1 hr
    obtain ⟨a, ha, pk, hpk', hpay⟩ := hu.amounts i hi
    rw [ho] at ha
    injection ha with ha
    subst ha
    obtain ⟨key, hkey, hkp⟩ := hpk pk hpk'
    obtain ⟨w, hw, hwk⟩ := v2 key hkey pk hkp
    refine ⟨witOf w, List.mem_map_of_mem hw, ?_⟩
    show Ledger.LockedBy _ a w.vkey
    rw [hwk]; exact hpay
  · rw [hbl] at r8; exact r8


/-- Two keys, one of each input: 10 and 5 ada in, 12 to be paid (`samplePayment`, as a session). -/
def twoKeySession : Session :=
  { sampleSession [sampleKey, List.replicate 96 2] 10000000 12000000 sampleAddr with inputs := [⟨List.replicate 32 7, 0, 10000000⟩, ⟨List.replicate 32 7, 1, 5000000⟩] }

/-- C138: accepted with `Build` called first, and rejected without (C82). -/
example (H : Hashes) (hH : H.Ok) (blake224 blake256 : Bytes → Bytes) (h256 : ∀ m, (blake256 m).length = 32) :
    ∃ u, (∃ fee bs, twoKeySession.YieldsTwice (packageCrypto H blake256) fee bs ∧ Ledger.Valid (ledgerCrypto H blake224 blake256) ⟨44, 155381, 16384, 1000000, 1, 0⟩ u bs) ∧
      ∃ fee bs, twoKeySession.Yields (packageCrypto H blake256) fee bs ∧ ¬ Ledger.Valid (ledgerCrypto H blake224 blake256) ⟨44, 155381, 16384, 1000000, 1, 0⟩ u bs := by
  have k2 : (List.replicate 96 (2 : UInt8)).length = 96 ∧ leNat ((List.replicate 96 (2 : UInt8)).take 32) < 2 ^ 255 := by decide +kernel
  have hk : ∀ k ∈ twoKeySession.keys, k.length = 96 ∧ leNat (k.take 32) < 2 ^ 255 := by
    intro k hk
    rcases List.mem_cons.1 hk with rfl | hk
    · exact sampleKey_ok
    · rw [List.mem_singleton.1 hk]; exact k2
  obtain ⟨_, pk1, -, s1, -⟩ := C37_signature_valid H hH sampleKey sampleKey_ok.1 sampleKey_ok.2 []
  obtain ⟨_, pk2, -, s2, -⟩ := C37_signature_valid H hH (List.replicate 96 2) k2.1 k2.2 []
  have p1 := packageCrypto_publicKey H blake256 sampleKey sampleKey_ok.1 sampleKey_ok.2
  have p2 := packageCrypto_publicKey H blake256 (List.replicate 96 2) k2.1 k2.2
  rw [s1] at p1
  rw [s2] at p2
  let u : UTxO := fun r => if r = (List.replicate 32 7, 0) then some (0x61 :: blake224 pk1, 10000000) else if r = (List.replicate 32 7, 1) then some (0x61 :: blake224 pk2, 5000000) else none
  refine ⟨u, ?_, ?_⟩
  · obtain ⟨fee, bs, v, h1, h2, h3, -⟩ := C138_build_first H hH blake224 blake256 h256 twoKeySession [pk1, pk2] u 1 0 [0xf6] (by decide) hk
      (by intro pk hpk
          rcases List.mem_cons.1 hpk with rfl | hpk
          · exact ⟨sampleKey, by simp [twoKeySession, sampleSession], p1⟩
          · rw [List.mem_singleton.1 hpk]; exact ⟨_, by simp [twoKeySession, sampleSession], p2⟩)
      ⟨by intro i hi
          rcases List.mem_cons.1 hi with rfl | hi
          · decide
          · rw [List.mem_singleton.1 hi]; decide, by
        intro i hi
        rcases List.mem_cons.1 hi with rfl | hi
        · exact ⟨_, if_pos rfl, pk1, by simp, 0x61, [], by rw [List.append_nil], by decide⟩
        · rw [List.mem_singleton.1 hi]
          exact ⟨_, (if_neg (by decide)).trans (if_pos rfl), pk2, by simp, 0x61, [], by rw [List.append_nil], by decide⟩⟩
      (by decide) (by decide)
      (by intro o ho; rw [List.mem_singleton.1 ho]; exact ⟨⟨by decide +kernel, _, _, rfl, by decide +kernel⟩, by decide +kernel⟩)
      ⟨by decide +kernel, _, _, rfl, by decide +kernel⟩ (by decide +kernel) (.inl rfl) (fun _ => rfl) (fun h => absurd rfl h) (by decide) (by decide) (by decide) (by decide) (by decide)
      (by decide) (by decide) (by decide)
    exact ⟨fee, bs, h1, v, h2, h3⟩
  · have hfee : (MinFee (packageCrypto H blake256) twoKeySession.builder).1 = 169461 := by
      have : (MinFee (packageCrypto H blake256) twoKeySession.builder).1 = (MinFee sampleCrypto { twoKeySession with keys := [] }.builder).1 := rfl
      rw [this]; decide +kernel
    obtain ⟨fee, bs, hy⟩ := C77_succeeds H hH blake256 twoKeySession (.inl rfl) (by intro o h; rw [List.mem_singleton.1 h]; exact ⟨_, rfl⟩) ⟨_, rfl⟩ hk
    have hf := sample_fits [sampleKey, List.replicate 96 2] (by decide) 10000000 12000000 sampleAddr (by exact (by decide +kernel : (Addr.bytes sampleAddr).length < 2 ^ 63))
    have hf : twoKeySession.Fits := ⟨by decide, hf.outputs, hf.keys, by
      intro i hi
      rcases List.mem_cons.1 hi with rfl | hi
      · decide
      · rw [List.mem_singleton.1 hi]; decide, hf.addrs, hf.change, .inl rfl⟩
    refine ⟨fee, bs, hy, C82_two_keys_rejected H hH blake224 blake256 h256 twoKeySession u 1 0 fee bs sampleAddrBytes hf hy (by decide) rfl (by decide +kernel) (by decide) (by decide) ?_ (by decide)⟩
    obtain ⟨t, hb, rfl⟩ := hy
    obtain ⟨hbody, -⟩ := built_parts _ _ _ _ _ _ [0xf6] hb (fun _ => rfl)
    have : t.body.fee = (MinFee (packageCrypto H blake256) twoKeySession.builder).1 := by rw [hbody]
    rw [this, hfee]
    decide

end Cardano.Props
