import Verif.Props.TxSamples
import Verif.Props.Order
import Verif.Props.Machine32
/-!
# Property C151: failures while the fee is computed
-/
set_option autoImplicit false

namespace Cardano.Props
open Cbor TxSpec Transaction TxBuilder Bip32
open Ledger (read refOf outOf UTxO Env)

/-- An output has a stake address, or the metadata is a value that the encoder refuses. -/
def Unwritable (outputs : List TxOutput) (metadata : Option Metadata) : Prop :=
  (∃ o ∈ outputs, ∃ n c, o.address = .reward n c) ∨ ∃ d, metadata = some d ∧ ∀ k, ∃ e, d.enc k = .err e

/-- No method of a metadata value panics. -/
def Calm (metadata : Option Metadata) : Prop := ∀ d, metadata = some d → ∀ k, d.enc k ≠ .panic

namespace Failing

/-- The result is an error. -/
def Fails {α : Type} (r : Res α) : Prop := ∃ e, r = .err e

theorem Fails.bind {α β : Type} {r : Res α} (h : Fails r) (f : α → Res β) : Fails (r >>= f) := by
  obtain ⟨e, rfl⟩ := h; exact ⟨e, rfl⟩

theorem collect_fails (l : List TxOutput) (h : ∃ o ∈ l, ∃ n c, o.address = .reward n c) : Fails (collect (l.map marshalOutput)) := by
  induction l with
  | nil => obtain ⟨o, ho, _⟩ := h; exact absurd ho (by simp)
  | cons o l ih =>
    obtain ⟨ad, am⟩ := o
    rw [List.map_cons]
    unfold collect marshalOutput
    cases e : marshalAddress ad with
    | err m => exact ⟨m, rfl⟩
    | panic => cases ad <;> exact nomatch e
    | ok a =>
      obtain ⟨o', ho, n, c, hr⟩ := h
      rcases List.mem_cons.1 ho with rfl | ho
      · dsimp only at hr
        subst hr
        exact nomatch e
      · obtain ⟨m, hm⟩ := ih ⟨o', ho, n, c, hr⟩
        exact ⟨m, by
          simp only [Res.ok_bind]
          show (do let b ← Res.ok (encArray [a, encUint am]); let bs ← collect (l.map marshalOutput); pure (b :: bs)) = _
          rw [hm]; rfl⟩

theorem body_fails (b : TxBody) (h : ∃ o ∈ b.outputs, ∃ n c, o.address = .reward n c) : Fails (marshalBody b) :=
  (collect_fails _ h).bind _

theorem aux_outputs (C : Crypto) (t : Tx) (k : Nat) (b : TxBody) (h : calcAux C t k = .ok b) : b.outputs = t.body.outputs := by
  unfold calcAux at h
  split at h
  · cases h; rfl
  · split at h
    · cases h; rfl
    · exact nomatch h
    · exact nomatch h

theorem aux_calm (C : Crypto) (t : Tx) (k : Nat) (h : Calm t.metadata) : calcAux C t k ≠ .panic := by
  unfold calcAux
  split
  · exact fun e => nomatch e
  · rename_i d hd
    split
    · exact fun e => nomatch e
    · exact fun e => nomatch e
    · rename_i e; exact absurd e (h d hd k)

theorem after_aux (C : Crypto) {β : Type} (t : Tx) (k : Nat) (f : TxBody → Res β) (h : Unwritable t.body.outputs t.metadata) (hc : Calm t.metadata)
    (hf : ∀ b, b.outputs = t.body.outputs → (∃ o ∈ t.body.outputs, ∃ n c, o.address = .reward n c) → Fails (f b)) : Fails (calcAux C t k >>= f) := by
  rcases h with h | ⟨d, hd, he⟩
  · cases e : calcAux C t k with
    | ok b => exact hf b (aux_outputs C t k b e) h
    | err m => exact ⟨m, rfl⟩
    | panic => exact absurd e (aux_calm C t k hc)
  · obtain ⟨m, hm⟩ := he k
    have : calcAux C t k = .err "cannot serialize metadata" := by
      unfold calcAux
      simp only [hd, hm]
    rw [this]; exact ⟨_, rfl⟩

end Failing
open Failing

/-- **C151: an error is reported** by `Bytes`, `Hex`, `Hash` and `Fee` of a transaction that cannot be written. -/
theorem C151_reported (C : Crypto) (t : Tx) (k : Nat) (l : LinearFee) (h : Unwritable t.body.outputs t.metadata) (hc : Calm t.metadata) :
    (∃ e, bytes C t k = .err e) ∧ (∃ e, Transaction.hex C t k = .err e) ∧ (∃ e, Transaction.hash C t k = .err e) ∧ ∃ e, fee C l t k = .err e := by
  have h1 : Fails (bytes C t k) := after_aux C t k _ h hc fun b hb ho => (body_fails b (by rw [hb]; exact ho)).bind _
  refine ⟨h1, h1.bind _, ?_, ?_⟩
  · exact after_aux C t k _ h hc fun b hb ho => (body_fails b (by rw [hb]; exact ho)).bind _
  · exact after_aux C t k _ h hc fun b hb ho => Fails.bind ((body_fails b (by rw [hb]; exact ho)).bind _) _

/-- **C151: `Build` reports an error.** -/
theorem C151_build_reported (C : Crypto) (b : Builder) (h : Unwritable b.body.outputs b.metadata) (hc : Calm b.metadata) : ∃ e, (Build C b).1 = .err e := by
  obtain ⟨e, he⟩ := (C151_reported C (tx b) b.clock ⟨0, 0⟩ h hc).2.2.1
  unfold Build
  rw [he]
  exact ⟨e, rfl⟩

/-- The second pass of the fee calculation fails: an output cannot be written, or the encoder of the metadata fails the fourth or fifth time that `MinFee` calls it. -/
def SecondPassFails (b : Builder) : Prop :=
  (∃ o ∈ b.body.outputs, ∃ n c, o.address = .reward n c) ∨
    ∃ d, b.metadata = some d ∧ ((∃ e, d.enc (b.clock + 3) = .err e) ∨ ∃ e, d.enc (b.clock + 4) = .err e)

theorem fee_not_ok (C : Crypto) (l : LinearFee) (t : Tx) (k : Nat)
    (h : (∃ o ∈ t.body.outputs, ∃ n c, o.address = .reward n c) ∨ ∃ d, t.metadata = some d ∧ ((∃ e, d.enc k = .err e) ∨ ∃ e, d.enc (k + 1) = .err e)) :
    orZero (fee C l t k) = 0 := by
  cases e : fee C l t k with
  | err m => rfl
  | panic => rfl
  | ok n =>
    exfalso
    unfold fee at e
    obtain ⟨b, h1, e⟩ := Addr.bind_ok e
    obtain ⟨cb, h2, e⟩ := Addr.bind_ok e
    unfold marshalTx at h2
    obtain ⟨bb, h3, h2⟩ := Addr.bind_ok h2
    obtain ⟨m, h4, h2⟩ := Addr.bind_ok h2
    rcases h with h | ⟨d, hd, ⟨x, hx⟩ | ⟨x, hx⟩⟩
    · obtain ⟨x, hx⟩ := body_fails b (by rw [aux_outputs C t k b h1]; exact h)
      dsimp only at h3
      rw [hx] at h3
      exact nomatch h3
    · unfold calcAux at h1
      simp only [hd, hx] at h1
      exact nomatch h1
    · unfold marshalMetadata at h4
      simp only [hd, hx] at h4
      exact nomatch h4

/-- **C151: no error from the fee calculation.** Where the second pass fails, `MinFee` returns zero, and `AddChangeIfNeeded` sets the fee to zero and the change to all that is left. -/
theorem C151_fee_zero (C : Crypto) (b : Builder) (addr : Address) (h : SecondPassFails b) :
    (MinFee C b).1 = 0 ∧ (AddChangeIfNeeded C b addr).body.fee = 0 ∧
      (AddChangeIfNeeded C b addr).body.outputs = b.body.outputs ++ [⟨addr, totalIn b.body.inputs - totalOut b.body.outputs⟩] := by
  have h0 : (MinFee C b).1 = 0 := by
    unfold MinFee feePasses
    dsimp only
    refine fee_not_ok C _ _ _ ?_
    have hm : ∀ t k, (afterAux C t k).metadata = t.metadata := by
      intro t k; unfold afterAux; split <;> rfl
    have ho : ∀ t k, (afterAux C t k).body.outputs = t.body.outputs := by
      intro t k; unfold afterAux; split
      · rename_i bd hb; exact aux_outputs C t k bd hb
      · rfl
    have hfm : (feeTx C b b.clock).metadata = b.metadata := by
      unfold feeTx
      dsimp only
      repeat' split
      all_goals exact hm _ _
    have hfo : ∀ o ∈ b.body.outputs, o ∈ (feeTx C b b.clock).body.outputs := by
      intro o hin
      unfold feeTx
      dsimp only
      repeat' split
      all_goals first | (dsimp only; rw [ho]; exact List.mem_append_left _ hin) | (dsimp only; rw [ho]; exact hin) | (rw [ho]; exact hin)
    rcases h with ⟨o, h1, h2⟩ | ⟨d, h1, h2⟩
    · refine .inl ⟨o, ?_, h2⟩
      dsimp only
      rw [ho]
      exact hfo o h1
    · refine .inr ⟨d, ?_, h2⟩
      dsimp only
      rw [hm, hfm, h1]
  have h1 : (AddChangeIfNeeded C b addr).body.outputs =
    b.body.outputs ++ [⟨addr, totalIn b.body.inputs - totalOut b.body.outputs - (MinFee C b).1⟩] := rfl
  refine ⟨h0, h0, ?_⟩
  rw [h1, h0, UInt64.sub_zero]

/-! ### Afterwards -/

theorem step_outputs (C : Crypto) (b : Builder) (op : Op) : ∃ l, (step C b op).body.outputs = b.body.outputs ++ l := by
  have haux : ∀ t k, (afterAux C t k).body.outputs = t.body.outputs := by
    intro t k; unfold afterAux; split
    · rename_i bd hb; exact aux_outputs C t k bd hb
    · rfl
  cases op with
  | addOutputs l => exact ⟨l, rfl⟩
  | addChange a => exact ⟨_, rfl⟩
  | build =>
    refine ⟨[], ?_⟩
    rw [List.append_nil]
    show (Build C b).2.body.outputs = _
    have := haux (tx b) b.clock
    unfold Build; simp only
    split
    · exact this
    · exact this
    · split <;> exact this
  | bytesOf h => exact ⟨[], by rw [List.append_nil]; exact haux (view b h) b.clock⟩
  | _ => exact ⟨[], (List.append_nil _).symm⟩

theorem run_outputs (C : Crypto) (ops : List Op) : ∀ b : Builder, ∃ l, (run C b ops).body.outputs = b.body.outputs ++ l := by
  induction ops with
  | nil => exact fun b => ⟨[], (List.append_nil _).symm⟩
  | cons op ops ih =>
    intro b
    obtain ⟨l, h⟩ := step_outputs C b op
    obtain ⟨l', h'⟩ := ih (step C b op)
    exact ⟨l ++ l', by rw [← List.append_assoc, ← h]; exact h'⟩

theorem last_change (ops : List Op) : NoChange ops ∨ ∃ o1 a o2, ops = o1 ++ .addChange a :: o2 ∧ NoChange o2 := by
  induction ops with
  | nil => exact .inl fun _ h => absurd h (by simp)
  | cons op ops ih =>
    rcases ih with h | ⟨o1, a, o2, rfl, h⟩
    · by_cases hc : ∃ a, op = .addChange a
      · obtain ⟨a, rfl⟩ := hc
        exact .inr ⟨[], a, ops, rfl, h⟩
      · refine .inl fun o ho a e => ?_
        rcases List.mem_cons.1 ho with rfl | ho
        · exact hc ⟨a, e⟩
        · exact h o ho a e
    · exact .inr ⟨op :: o1, a, o2, rfl, h⟩

/-- **C151: the builder cannot be repaired.** Once `AddChangeIfNeeded` was called with a fee calculation that failed (and gave zero), then whatever is done with the builder - the
metadata replaced, `AddChangeIfNeeded` called again, and so on, but without further inputs - no ledger with a fixed fee accepts what it builds. -/
theorem C151_rejected (H : Hashes) (hH : H.Ok) (blake224 blake256 : Bytes → Bytes) (h256 : ∀ m, (blake256 m).length = 32)
    (b b2 : Builder) (addr : Address) (ops : List Op) (u : UTxO) (e : Env) (bs : Bytes) (h0 : SecondPassFails b)
    (hin : ops.flatMap inputsOf = [])
    (h2 : b2 = run (packageCrypto H blake256) (AddChangeIfNeeded (packageCrypto H blake256) b addr) ops)
    (hf : BuilderFits b2) (hy : Finishes (packageCrypto H blake256) b2 bs)
    (hu : StatedRight u b.body.inputs) (hI : sumIn b.body.inputs < 2 ^ 64) (he : 0 < e.minFeeB) :
    ¬ Ledger.Valid (ledgerCrypto H blake224 blake256) e u bs := by
  intro hval
  have hpos : 0 < b2.body.fee.toNat := by
    obtain ⟨v, hv, ha⟩ := id hval
    obtain ⟨-, -, h3, -⟩ := finish_read H hH blake256 h256 _ bs hf hy v hv
    have := ha.fee
    omega
  obtain ⟨z1, z2, z3⟩ := C151_fee_zero (packageCrypto H blake256) b addr h0
  have hin2 : b2.body.inputs = b.body.inputs := by
    rw [h2, (C29_history _ ops _).1, hin, List.append_nil]; rfl
  rcases last_change ops with hn | ⟨o1, a, o2, rfl, hn⟩
  · rw [h2, run_fee _ ops _ hn, z2] at hpos
    exact absurd hpos (by decide)
  · rw [List.flatMap_append, List.append_eq_nil_iff] at hin
    have hr : b2 = run (packageCrypto H blake256) (AddChangeIfNeeded (packageCrypto H blake256)
        (run (packageCrypto H blake256) (AddChangeIfNeeded (packageCrypto H blake256) b addr) o1) a) o2 := by
      rw [h2]; unfold run; rw [List.foldl_append]; rfl
    have hb := (C96_later_calls_balance H hH blake224 blake256 h256 _ b2 a o2 hn u e bs hr hf hy (by rw [hin2]; exact hu) (by rw [hin2]; exact hI) hval).1
    rw [(C29_history _ o1 _).1, hin.1, List.append_nil] at hb
    obtain ⟨l, hl⟩ := run_outputs (packageCrypto H blake256) o1 (AddChangeIfNeeded (packageCrypto H blake256) b addr)
    rw [hl, z3, sumOut_append, sumOut_snoc] at hb
    rw [show (AddChangeIfNeeded (packageCrypto H blake256) b addr).body.inputs = b.body.inputs from rfl] at hb
    dsimp only at hb
    rw [UInt64.toNat_sub, totalIn_toNat, totalOut_toNat] at hb
    omega

/-! ### Concrete cases -/

/-- The sample of C77 with a value as metadata that cannot be encoded. -/
def refusedSample : Builder := { sampleSession [sampleKey] 10000000 5000000 sampleAddr with metadata := some ⟨fun _ => .err "cbor: unsupported type: chan int"⟩ : Session }.builder

/-- `Build` reports the error. -/
example (C : Crypto) : ∃ e, (Build C refusedSample).1 = .err e :=
  C151_build_reported C refusedSample (.inr ⟨_, rfl, fun _ => ⟨_, rfl⟩⟩) (by intro d hd k; cases hd; exact fun e => nomatch e)

/-- A payment to a stake address. -/
example (C : Crypto) (n : NetworkInfo) (c : Cred) : ∃ e, (Build C (AddOutputs (NewTxBuilder ⟨44, 155381, 16384, 1000000⟩ []) [⟨.reward n c, 5⟩])).1 = .err e :=
  C151_build_reported C _ (.inl ⟨_, List.mem_singleton.2 rfl, n, c, rfl⟩) (by intro d hd; exact nomatch hd)

/-- After `AddChangeIfNeeded`, which gave no error, the metadata is removed and change added once more: a transaction is built, and rejected. All hypotheses of `C151_rejected`
hold. -/
example (H : Hashes) (hH : H.Ok) (blake224 blake256 : Bytes → Bytes) (h256 : ∀ m, (blake256 m).length = 32) (pk : Bytes) :
    ∃ bs, Finishes (packageCrypto H blake256)
        (run (packageCrypto H blake256) (AddChangeIfNeeded (packageCrypto H blake256) refusedSample sampleAddr) [.setMetadata none, .addChange sampleAddr]) bs ∧
      ¬ Ledger.Valid (ledgerCrypto H blake224 blake256) (envOf (sampleSession [] 0 0 sampleAddr).protocol 1 0) (sampleUTxO blake224 pk 10000000) bs := by
  have hs := sample_fits [sampleKey] (by decide : 1 < 2 ^ 63) 10000000 5000000 sampleAddr (by decide +kernel : (Addr.bytes sampleAddr).length < 2 ^ 63)
  obtain ⟨bs, hb⟩ := finishes_total H hH blake256
    (run (packageCrypto H blake256) (AddChangeIfNeeded (packageCrypto H blake256) refusedSample sampleAddr) [.setMetadata none, .addChange sampleAddr]) (.inl rfl)
    (by
      intro o h
      rcases List.mem_append.1 h with h | h
      · rcases List.mem_append.1 (show o ∈ [_] ++ [_] from h) with h | h
        · rw [List.mem_singleton.1 h]; exact ⟨_, rfl⟩
        · rw [List.mem_singleton.1 h]; exact ⟨_, rfl⟩
      · rw [List.mem_singleton.1 h]; exact ⟨_, rfl⟩)
    (by intro k h; rw [List.mem_singleton.1 (show k ∈ [_] from h)]; exact sampleKey_ok)
  refine ⟨bs, hb, C151_rejected H hH blake224 blake256 h256 refusedSample _ sampleAddr [.setMetadata none, .addChange sampleAddr] _ _ bs (.inr ⟨_, rfl, .inl ⟨_, rfl⟩⟩)
    rfl rfl ?_ hb ⟨?_, ?_⟩ (by show 10000000 < 2 ^ 64; decide) (by show 0 < 155381; decide)⟩
  · refine ⟨(by decide : 1 < 2 ^ 63), (by decide : 3 < 2 ^ 63), (by decide : 1 < 2 ^ 63), hs.ids, ?_, (by decide : 0 < 2 ^ 63), .inl rfl⟩
    intro o h
    have hsa : AddressFits sampleAddr := hs.change
    rcases List.mem_append.1 h with h | h
    · rcases List.mem_append.1 (show o ∈ [_] ++ [_] from h) with h | h
      · rw [List.mem_singleton.1 h]; exact hsa
      · rw [List.mem_singleton.1 h]; exact hsa
    · rw [List.mem_singleton.1 h]; exact hsa
  · intro i h
    rw [List.mem_singleton.1 (show i ∈ [_] from h)]
    exact ⟨0x61 :: blake224 pk, rfl⟩
  · exact List.nodup_singleton _

end Cardano.Props
