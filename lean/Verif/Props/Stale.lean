import Verif.Props.Asked
/-!
# Property C140: what becomes of a prepared transaction when the protocol parameters change
-/
set_option autoImplicit false

namespace Cardano.Props
open Cbor TxSpec Transaction TxBuilder Addr Bip32 Spec
open Ledger (read refOf outOf witOf Env UTxO OutputAddress)

/-- **C140, exactly.** A transaction that the ledger accepts under some parameters is accepted under others of the same network, in another slot, exactly if it has not
expired, the new least fee for its size is not above the fee that was set, none of the outputs asked for and not the change is below the new minimum, and the bytes are
not more than the new limit. The old parameters do not matter. -/
theorem C140_exactly (H : Hashes) (hH : H.Ok) (blake224 blake256 : Bytes → Bytes) (h256 : ∀ m, (blake256 m).length = 32)
    (s : Session) (fee : Nat) (bs : Bytes) (hf : s.Fits) (hy : s.Yields (packageCrypto H blake256) fee bs) (u : UTxO) (e e' : Env)
    (hI : sumIn s.inputs < 2 ^ 64) (hcover : sumOut s.outputs + fee ≤ sumIn s.inputs) (hn : e'.network = e.network)
    (hv : Ledger.Valid (ledgerCrypto H blake224 blake256) e u bs) :
    Ledger.Valid (ledgerCrypto H blake224 blake256) e' u bs ↔
      (s.ttl = 0 ∨ e'.slot < s.ttl.toNat) ∧ e'.minFeeA * bs.length + e'.minFeeB ≤ fee ∧
      (∀ o ∈ s.outputs, e'.minUTxOValue ≤ o.amount.toNat) ∧ e'.minUTxOValue ≤ sumIn s.inputs - sumOut s.outputs - fee ∧ bs.length ≤ e'.maxTxSize := by
  obtain ⟨v, hr, ha⟩ := hv
  obtain ⟨r1, ⟨change, hc, r2⟩, r3, r4, -, r5⟩ := session_read H hH blake256 h256 s fee bs hf hy v hr
  have hce : change.toNat = sumIn s.inputs - sumOut s.outputs - fee := by
    rw [hc]
    exact change_toNat s.inputs s.outputs fee hI hcover
  constructor
  · rintro ⟨v', hr', ha'⟩
    rw [hr] at hr'
    obtain rfl := Option.some.inj hr'
    refine ⟨?_, ?_, ?_, ?_, ?_⟩
    · by_cases h0 : s.ttl = 0
      · exact .inl h0
      · rw [if_neg h0] at r5
        exact .inr (ha'.ttl _ r5)
    · have := ha'.fee
      rwa [r3, r4] at this
    · intro o ho
      exact ha'.minimum (outOf o) (by rw [r2]; exact List.mem_append_left _ (List.mem_map_of_mem ho))
    · have := ha'.minimum (outOf ⟨s.change, change⟩) (by rw [r2]; exact List.mem_append_right _ (List.mem_singleton.2 rfl))
      have : e'.minUTxOValue ≤ change.toNat := this
      omega
    · have := ha'.size
      rwa [r4] at this
  · rintro ⟨h1, h2, h3, h4, h5⟩
    refine ⟨v, hr, ?_, ha.nonempty, ha.exist, by rw [r3, r4]; exact h2, ha.conserved, ?_, by rw [hn]; exact ha.network, by rw [r4]; exact h5, ha.signatures, ha.unlocked, ha.aux⟩
    · intro n he
      rw [r5] at he
      split at he
      · cases he
      · rename_i h0
        have := Option.some.inj he
        rcases h1 with h1 | h1
        · exact absurd h1 h0
        · omega
    · intro o ho
      rw [r2] at ho
      rcases List.mem_append.1 ho with ho | ho
      · obtain ⟨o', ho', rfl⟩ := List.mem_map.1 ho
        exact h3 o' ho'
      · rw [List.mem_singleton.1 ho]
        show _ ≤ change.toNat
        omega

/-- **C140: no reserve.** With one key and change to a base address, a fee of at most 200000 and a change amount that is not written in more bytes than what remains after
200000, any increase of the fee parameters after the transaction was made has the ledger reject it, whatever its state. -/
theorem C140_no_reserve (H : Hashes) (hH : H.Ok) (blake224 blake256 : Bytes → Bytes) (h256 : ∀ m, (blake256 m).length = 32)
    (s : Session) (key : Bytes) (fee : Nat) (bs : Bytes) (n : NetworkInfo) (c d : Cred) (hc : s.change = .base n c d)
    (hkeys : s.keys = [key]) (hf : s.Fits) (hch : OutputAddress (Addr.bytes s.change)) (hy : s.Yields (packageCrypto H blake256) fee bs)
    (hfix : 65536 ≤ s.protocol.txFeeFixed.toNat ∧ s.protocol.txFeeFixed.toNat < 2 ^ 31) (hper : s.protocol.txFeePerByte.toNat < 2 ^ 16)
    (hI : sumIn s.inputs < 2 ^ 64) (hcover : sumOut s.outputs + fee ≤ sumIn s.inputs) (hcover2 : sumOut s.outputs + 200000 ≤ sumIn s.inputs)
    (hmax : bs.length ≤ 16384) (hfee : fee ≤ 200000)
    (hwidth : uintSize (sumIn s.inputs - sumOut s.outputs - fee) ≤ uintSize (sumIn s.inputs - sumOut s.outputs - 200000))
    (u : UTxO) (e' : Env)
    (hup : s.protocol.txFeePerByte.toNat ≤ e'.minFeeA ∧ s.protocol.txFeeFixed.toNat < e'.minFeeB ∨
      s.protocol.txFeePerByte.toNat < e'.minFeeA ∧ s.protocol.txFeeFixed.toNat ≤ e'.minFeeB) :
    ¬ Ledger.Valid (ledgerCrypto H blake224 blake256) e' u bs := by
  have h := (C125_base_address H hH blake256 h256 s key fee bs 0 0 n c d hc hkeys hf hch hy hfix hper hI hcover hcover2 hmax hfee).2 hwidth
  rintro ⟨v, hr, ha⟩
  obtain ⟨-, -, r3, r4, -⟩ := session_read H hH blake256 h256 s fee bs hf hy v hr
  have hfe := ha.fee
  rw [r3, r4] at hfe
  change fee = s.protocol.txFeePerByte.toNat * bs.length + s.protocol.txFeeFixed.toNat at h
  have hpos : 0 < bs.length := by
    rcases Nat.eq_zero_or_pos bs.length with h0 | h0
    · rw [List.eq_nil_of_length_eq_zero h0] at hr; cases hr
    · exact h0
  rcases hup with ⟨h1, h2⟩ | ⟨h1, h2⟩
  · have := Nat.mul_le_mul_right bs.length h1
    omega
  · have := Nat.mul_lt_mul_of_pos_right h1 hpos
    omega

/-! ### Example -/

/-- The transaction of C125 with change to a base address is accepted in slot 999 under the parameters it was made with; one lovelace more for each byte, and it is
not. -/
example (H : Hashes) (hH : H.Ok) (blake224 blake256 : Bytes → Bytes) (h256 : ∀ m, (blake256 m).length = 32) :
    ∃ u bs, (askedSession sampleAddr).Fits ∧ (askedSession sampleAddr).Yields (packageCrypto H blake256) 168053 bs ∧
      Ledger.Valid (ledgerCrypto H blake224 blake256) ⟨44, 155381, 16384, 1000000, 1, 999⟩ u bs ∧
      Ledger.Valid (ledgerCrypto H blake224 blake256) ⟨43, 155381, 16384, 34482, 1, 0⟩ u bs ∧
      ∀ u', ¬ Ledger.Valid (ledgerCrypto H blake224 blake256) ⟨45, 155381, 16384, 1000000, 1, 999⟩ u' bs := by
  obtain ⟨bs, hy⟩ := variant_yields H hH blake256 (askedSession sampleAddr) rfl (by intro k h; exact List.mem_singleton.1 h)
    (by intro o h; rw [List.mem_singleton.1 h]) ⟨_, rfl⟩ _ (asked_fee H blake256 sampleAddr)
  obtain ⟨_, pk, -, s2, -⟩ := C37_signature_valid H hH sampleKey sampleKey_ok.1 sampleKey_ok.2 []
  have p1 := packageCrypto_publicKey H blake256 sampleKey sampleKey_ok.1 sampleKey_ok.2
  rw [s2] at p1
  have hlen : bs.length ≤ 16384 := by
    obtain ⟨body, e1, e2⟩ := asked_length H hH blake256 sampleAddr bs hy
    have e3 : sizeOf? (marshalBody ⟨[⟨List.replicate 32 7, 0, 10000000⟩], [⟨.base MainNet goldenPayment goldenStake, 5000000⟩, ⟨sampleAddr, 4831947⟩], 168053, 1000, []⟩) = some 181 := by
      decide +kernel
    rw [e1] at e3
    injection e3 with e3
    rw [e2, e3]
    decide
  obtain ⟨v, hr, ha, -⟩ := C77_ledger_accepts_partial H hH blake224 blake256 h256 (askedSession sampleAddr) sampleKey pk
    (sampleUTxO blake224 pk 10000000) 1 999 168053 bs rfl sampleKey_ok p1
    ⟨by intro i hi; rw [List.mem_singleton.1 hi]; decide, by
      intro i hi; rw [List.mem_singleton.1 hi]
      exact ⟨_, if_pos rfl, pk, List.mem_singleton.2 rfl, 0x61, [], by rw [List.append_nil], by decide⟩⟩
    (by decide) (by decide) (by decide : 1 < 2 ^ 63)
    (by intro o ho; rw [List.mem_singleton.1 ho]; exact ⟨⟨by decide +kernel, _, _, rfl, by decide +kernel⟩, by decide +kernel⟩)
    (by decide : 1 < 2 ^ 32) ⟨by decide +kernel, _, _, rfl, by decide +kernel⟩ (.inl rfl) (fun _ => by decide) hy
    ⟨by decide, by decide, by decide, .inr (by decide +kernel), by decide +kernel, by decide⟩ (by decide) (by decide) hlen
  have hf0 := sample_fits [sampleKey] (by decide : 1 < 2 ^ 63) 10000000 5000000 sampleAddr (by decide +kernel : (Addr.bytes sampleAddr).length < 2 ^ 63)
  have hf : (askedSession sampleAddr).Fits := ⟨hf0.inputs, hf0.outputs, hf0.keys, hf0.ids, hf0.addrs, hf0.change, hf0.metadata⟩
  have hv : Ledger.Valid (ledgerCrypto H blake224 blake256) ⟨44, 155381, 16384, 1000000, 1, 999⟩ (sampleUTxO blake224 pk 10000000) bs := ⟨v, hr, ha⟩
  refine ⟨_, bs, hf, hy, hv, ?_, ?_⟩
  · have hfee := ha.fee
    obtain ⟨-, -, r3, r4, -⟩ := session_read H hH blake256 h256 _ _ bs hf hy v hr
    rw [r3, r4] at hfee
    have hfee : 44 * bs.length + 155381 ≤ 168053 := hfee
    refine (C140_exactly H hH blake224 blake256 h256 _ _ bs hf hy _ ⟨44, 155381, 16384, 1000000, 1, 999⟩ ⟨43, 155381, 16384, 34482, 1, 0⟩ (by decide) (by decide) rfl hv).2
      ⟨.inr (by decide), ?_, ?_, (by decide : 34482 ≤ 10000000 + 0 - (5000000 + 0) - 168053), hlen⟩
    · show 43 * bs.length + 155381 ≤ 168053
      omega
    · intro o ho
      rw [List.mem_singleton.1 ho]
      decide
  · intro u'
    refine C140_no_reserve H hH blake224 blake256 h256 (askedSession sampleAddr) sampleKey 168053 bs _ _ _ rfl rfl hf (by decide +kernel) hy (by decide) (by decide)
      (by decide) (by decide) (by decide) hlen (by decide) ?_ u' _ (.inr (by decide))
    show uintSize (10000000 + 0 - (5000000 + 0) - 168053) ≤ uintSize (10000000 + 0 - (5000000 + 0) - 200000)
    decide +kernel

end Cardano.Props
