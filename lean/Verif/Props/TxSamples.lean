import Verif.Props.Builder
/-!
# Concrete cases that meet the hypotheses of the transaction and builder theorems
-/
set_option autoImplicit false

namespace Cardano.Props
open Cbor TxSpec Transaction TxBuilder Addr Cardano.Spec

/-- Change goes to a base address of the golden files. -/
def sampleAddr : Address := .base MainNet goldenPayment goldenStake

/-- The encoding of `sampleAddr`. -/
def sampleAddrBytes : Bytes := encBytes (Addr.bytes sampleAddr)

/-- The transaction built after `AddChangeIfNeeded` and the `Sign` calls. -/
def builtTx (C : Crypto) (b : Builder) (addr : Address) (keys : List Bytes) : Tx :=
  match Build C (keys.foldl Sign (AddChangeIfNeeded C b addr)) with
  | (.ok h, b') => view b' h
  | _ => ⟨⟨[], [], 0, 0, []⟩, [], true, none⟩

/-- Its bytes. -/
def builtBytes (C : Crypto) (b : Builder) (addr : Address) (keys : List Bytes) : Bytes :=
  match bytes C (builtTx C b addr keys) 0 with
  | .ok bs => bs
  | _ => []

/-- Did `Build` succeed? -/
def buildOk (C : Crypto) (b : Builder) : Bool :=
  match (Build C b).1 with
  | .ok _ => true
  | _ => false

theorem build_of_ok (C : Crypto) (b : Builder) (h : buildOk C b = true) : ∃ hd b', Build C b = (.ok hd, b') := by
  unfold buildOk at h
  cases e : (Build C b).1 with
  | ok hd => exact ⟨hd, (Build C b).2, by rw [← e]⟩
  | err m => rw [e] at h; cases h
  | panic => rw [e] at h; cases h

theorem built_of_ok (C : Crypto) (b : Builder) (addr : Address) (keys : List Bytes)
    (h1 : buildOk C (keys.foldl Sign (AddChangeIfNeeded C b addr)) = true)
    (h2 : bytes C (builtTx C b addr keys) 0 = .ok (builtBytes C b addr keys)) :
    Built C b addr keys (builtTx C b addr keys) (builtBytes C b addr keys) := by
  obtain ⟨h, b', e⟩ := build_of_ok C _ h1
  refine ⟨h, b', 0, e, ?_, h2⟩
  unfold builtTx; rw [e]

theorem sample_regular (inp out : UInt64) (keys : List Bytes) : Regular sampleCrypto (sampleBuilder inp out keys) where
  hash := fun _ => by show (List.replicate 32 (0 : UInt8)).length = 32; decide
  key := fun _ pk h => by
    have : hexLit "f623f6c21958349e8d3c2c6c7e03eacddefd085f6b26730d50e203b3c36c1ea0" = pk := by injection h
    rw [← this]; decide +kernel
  sig := fun _ _ s h => by
    have : List.replicate 64 (0 : UInt8) = s := by injection h
    rw [← this]; decide
  md := ⟨_, fun _ => ⟨_, rfl, rfl⟩⟩
  aux := fun _ => rfl
  wits := fun w hw => by cases hw

/-- C20, sufficient case: 10 ada in, 5 ada out, one key: fee 167877 for 284 bytes. -/
example : ∃ (C : Crypto) (b : Builder) (addr : Address) (keys : List Bytes) (t : Tx) (bs ab : Bytes),
    Built C b addr keys t bs ∧ Regular C b ∧ (b.xprvs ++ keys).length ≤ max 1 (tx b).witness.length ∧ (tx b).witness.length ≤ 100 ∧
    b.body.outputs.length < 2 ^ 32 ∧ marshalAddress addr = .ok ab ∧ ab.length ≤ 59 ∧
    sumIn b.body.inputs < 2 ^ 64 ∧ sumOut b.body.outputs < sumIn b.body.inputs ∧
    sumOut b.body.outputs + t.body.fee.toNat ≤ sumIn b.body.inputs ∧
    uintSize (sumIn b.body.inputs - sumOut b.body.outputs - t.body.fee.toNat) ≤ uintSize (sumIn b.body.inputs - sumOut b.body.outputs - 200000) ∧
    65536 ≤ b.protocol.txFeeFixed.toNat ∧ b.protocol.txFeeFixed.toNat < 2 ^ 31 ∧ b.protocol.txFeePerByte.toNat < 2 ^ 16 ∧ bs.length ≤ 16384 := by
  refine ⟨sampleCrypto, sampleBuilder 10000000 5000000 [], sampleAddr, [[7]], _, _, sampleAddrBytes,
    built_of_ok _ _ _ _ (by decide +kernel) (by decide +kernel), sample_regular _ _ _, ?_, ?_, ?_, ?_, ?_, ?_, ?_, ?_, ?_, ?_, ?_, ?_, ?_⟩ <;>
    decide +kernel

/-- C20, two keys: the fee is too low. -/
example : ∃ (C : Crypto) (b : Builder) (addr : Address) (keys : List Bytes) (t : Tx) (bs ab : Bytes),
    Built C b addr keys t bs ∧ Regular C b ∧ 2 ≤ (b.xprvs ++ keys).length ∧ (b.xprvs ++ keys).length < 2 ^ 63 ∧ (tx b).witness = [] ∧
    b.body.outputs.length < 2 ^ 32 ∧ marshalAddress addr = .ok ab ∧ 59 ≤ ab.length ∧ sumIn b.body.inputs < 2 ^ 64 ∧
    t.body.fee.toNat ≤ 200000 ∧ sumOut b.body.outputs + 200000 ≤ sumIn b.body.inputs ∧ 0 < b.protocol.txFeePerByte.toNat := by
  refine ⟨sampleCrypto, sampleBuilder 10000000 5000000 [], sampleAddr, [[7], [8]], _, _, sampleAddrBytes,
    built_of_ok _ _ _ _ (by decide +kernel) (by decide +kernel), sample_regular _ _ _, ?_, ?_, ?_, ?_, ?_, ?_, ?_, ?_, ?_, ?_⟩ <;>
    first | decide +kernel | rfl

/-- C20, exactly: a change that takes four bytes more than the placeholder, and the fee is four times the price per byte too low. -/
example : ∃ (C : Crypto) (b : Builder) (addr : Address) (keys : List Bytes) (t : Tx) (bs ab : Bytes),
    Built C b addr keys t bs ∧ Regular C b ∧ (b.xprvs ++ keys).length = max 1 (tx b).witness.length ∧ (tx b).witness.length ≤ 100 ∧
    b.body.outputs.length < 2 ^ 32 ∧ marshalAddress addr = .ok ab ∧
    sumIn b.body.inputs < 2 ^ 64 ∧ sumOut b.body.outputs + t.body.fee.toNat ≤ sumIn b.body.inputs ∧ sumOut b.body.outputs + 200000 ≤ sumIn b.body.inputs ∧
    65536 ≤ b.protocol.txFeeFixed.toNat ∧ b.protocol.txFeeFixed.toNat < 2 ^ 31 ∧ b.protocol.txFeePerByte.toNat < 2 ^ 16 ∧ bs.length ≤ 16384 ∧
    t.body.fee.toNat + 4 * b.protocol.txFeePerByte.toNat = linearFee b.protocol bs.length := by
  refine ⟨sampleCrypto, sampleBuilder 4300150000 5000000 [], sampleAddr, [[7]], _, _, sampleAddrBytes,
    built_of_ok _ _ _ _ (by decide +kernel) (by decide +kernel), sample_regular _ _ _, ?_, ?_, ?_, ?_, ?_, ?_, ?_, ?_, ?_, ?_, ?_, ?_⟩ <;>
    decide +kernel

/-- C21: inputs cover outputs and fee. -/
example : sumIn (sampleBuilder 10000000 5000000 []).body.inputs < 2 ^ 64 ∧ sumOut (sampleBuilder 10000000 5000000 []).body.outputs +
    (MinFee sampleCrypto (sampleBuilder 10000000 5000000 [])).1.toNat ≤ sumIn (sampleBuilder 10000000 5000000 []).body.inputs := by
  constructor <;> decide +kernel

/-- C22: 1 ada in, 5 ada out. -/
example : sumIn (sampleBuilder 1000000 5000000 []).body.inputs < sumOut (sampleBuilder 1000000 5000000 []).body.outputs +
      (MinFee sampleCrypto (sampleBuilder 1000000 5000000 [])).1.toNat ∧
    sumOut (sampleBuilder 1000000 5000000 []).body.outputs + (MinFee sampleCrypto (sampleBuilder 1000000 5000000 [])).1.toNat < 2 ^ 64 := by
  constructor <;> decide +kernel

/-- C22: exactly zero change is possible: outputs 5 ada, fee 167877 for a transaction with change. (The placeholder amount
underflows to a nine-byte number, hence the different fee.) -/
example : ∃ i : UInt64, sumIn (sampleBuilder i 5000000 []).body.inputs < 2 ^ 64 ∧ sumOut (sampleBuilder i 5000000 []).body.outputs +
    (MinFee sampleCrypto (sampleBuilder i 5000000 [])).1.toNat = sumIn (sampleBuilder i 5000000 []).body.inputs :=
  ⟨5168053, by decide +kernel, by decide +kernel⟩

/-- C24, C25, C28, C59: `Build` succeeds with two keys; the metadata is deterministic. -/
example : (∃ h b', Build sampleCrypto (sampleBuilder 10000000 5000000 [[1], [2]]) = (.ok h, b')) ∧
    Deterministic (sampleBuilder 10000000 5000000 [[1], [2]]).metadata :=
  ⟨build_of_ok _ _ (by decide +kernel), fun _ h => by cases h⟩

/-- C28: harmless calls exist, and a built transaction with a witness. -/
example : (∀ op ∈ [Op.sign [1], .minFee, .build, .minFee], Harmless op) ∧
    ∃ h b', Build sampleCrypto (sampleBuilder 10000000 5000000 [[1]]) = (.ok h, b') ∧ b'.metadata = none ∧ h.wit < b'.wits.length ∧ (view b' h).witness ≠ [] := by
  constructor
  · intro op h
    simp only [List.mem_cons, List.not_mem_nil, or_false] at h
    rcases h with rfl | rfl | rfl | rfl <;> exact trivial
  · obtain ⟨h, b', e⟩ := build_of_ok sampleCrypto (sampleBuilder 10000000 5000000 [[1]]) (by decide +kernel)
    obtain ⟨body, bb, ws, h1, h2, h3, h4, h5⟩ := build_ok _ _ _ _ e
    refine ⟨h, b', e, by rw [h5]; rfl, by rw [h4, h5]; simp, ?_⟩
    have hl := (C24_build_signs_body _ _ _ _ e).2
    obtain ⟨_, _, ha⟩ := hl
    intro hc
    rw [hc] at ha
    have := All2.length_eq ha
    cases this

/-- C54: outputs serialise; a reward output does not. -/
example : (∃ outs, collect ((sampleBuilder 10000000 5000000 []).body.outputs.map marshalOutput) = .ok outs) ∧
    (⟨.reward MainNet goldenStake, 5⟩ : TxOutput) ∈ (AddOutputs (sampleBuilder 1 1 []) [⟨.reward MainNet goldenStake, 5⟩]).body.outputs :=
  ⟨⟨_, rfl⟩, by simp [AddOutputs]⟩

/-- C17, C18, C19, C26: a transaction with input, output, witness and metadata. -/
def sampleTx : Tx :=
  ⟨⟨[NewTxInput (asc "fcbc18c64cdf133f33dd319c5105dc7c4972f2d646ae276fbd00cf7f39f8c380".toList) 3 10000000],
    [⟨.base MainNet goldenPayment goldenStake, 5000000⟩], 170000, 7, []⟩, [dummyWitness], true, some ⟨fun _ => .ok [0xa1, 1, 2]⟩⟩

example : (∀ m, (sampleCrypto.blake256 m).length = 32) ∧ BodyFits sampleTx.body ∧ WitnessFits sampleTx.witness ∧ Deterministic sampleTx.metadata ∧
    (∃ bs, Transaction.bytes sampleCrypto sampleTx 5 = .ok bs) ∧
    (∀ md, sampleTx.metadata = some md → ∀ b, md.enc 6 = .ok b → ∃ x, parse b = some x) := by
  refine ⟨fun _ => by show (List.replicate 32 (0 : UInt8)).length = 32; decide, ⟨by decide, by decide, ?_, ?_, by decide⟩, ⟨by decide, ?_⟩, ?_, ?_, ?_⟩
  · intro i hi
    rw [List.mem_singleton.1 hi]
    show (Hex.decode _).1.length < _
    decide +kernel
  · intro o ho
    rw [List.mem_singleton.1 ho]
    show (Addr.bytes _).length < _
    decide +kernel
  · intro w hw
    rw [List.mem_singleton.1 hw]
    exact ⟨by decide, by decide⟩
  · intro md h i j
    injection h with h
    subst h; rfl
  · exact ⟨_, rfl⟩
  · intro md h b hb
    injection h with h
    subst h
    have : ([0xa1, 1, 2] : Bytes) = b := by injection hb
    subst this
    exact ⟨_, rfl⟩

/-- C30: a Byron address meeting the hypotheses, and a base address. -/
example : (Addr.bytes sampleAddr).length < 2 ^ 63 ∧ (∀ b, sampleAddr ≠ .byron b) ∧ ∀ n c, sampleAddr ≠ .reward n c :=
  ⟨by decide +kernel, (fun _ h => by cases h), (fun _ _ h => by cases h)⟩

/-- C31: the hypotheses are met by "0aFF" and by "zz". -/
example : NewTxInput (asc "0aFF".toList) 1 2 = ⟨[0x0a, 0xff], 1, 2⟩ ∧ hexVal 0x7a = none := by constructor <;> decide +kernel

end Cardano.Props
