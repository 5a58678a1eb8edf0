import Verif.Tx.Word32
import Verif.Props.TxSamples
import Verif.Props.Order
import Verif.Props.Node
/-!
# Properties C149 and C150 (Byron addresses): machines where `uint` has 32 bits
-/
set_option autoImplicit false

namespace Cardano.Props
open Cbor TxSpec Transaction TxBuilder Ed Bip32
open Ledger (read refOf outOf UTxO Env)

namespace Machine32

theorem totalIn32_eq (l : List TxInput) : totalIn32 l = (totalIn l).toUInt32 := by
  unfold totalIn32 totalIn
  suffices h : ∀ a : UInt64, l.foldl (fun a i => a + i.amount.toUInt32) a.toUInt32 = (l.foldl (fun a i => a + i.amount) a).toUInt32 from h 0
  induction l with
  | nil => intro a; rfl
  | cons x l ih => intro a; simp only [List.foldl_cons]; rw [← UInt64.toUInt32_add]; exact ih _

theorem totalOut32_eq (l : List TxOutput) : totalOut32 l = (totalOut l).toUInt32 := by
  unfold totalOut32 totalOut
  suffices h : ∀ a : UInt64, l.foldl (fun a i => a + i.amount.toUInt32) a.toUInt32 = (l.foldl (fun a i => a + i.amount) a).toUInt32 from h 0
  induction l with
  | nil => intro a; rfl
  | cons x l ih => intro a; simp only [List.foldl_cons]; rw [← UInt64.toUInt32_add]; exact ih _

theorem totalIn32_toNat (l : List TxInput) : (totalIn32 l).toNat = sumIn l % 2 ^ 32 := by
  rw [totalIn32_eq, UInt64.toNat_toUInt32, totalIn_toNat]; omega

theorem totalOut32_toNat (l : List TxOutput) : (totalOut32 l).toNat = sumOut l % 2 ^ 32 := by
  rw [totalOut32_eq, UInt64.toNat_toUInt32, totalOut_toNat]; omega

/-- Cutting off the upper half loses nothing if it is zero. -/
theorem up_down (x : UInt64) (h : x.toNat < 2 ^ 32) : x.toUInt32.toUInt64 = x := by
  apply UInt64.toNat_inj.1
  rw [UInt32.toNat_toUInt64, UInt64.toNat_toUInt32]
  exact Nat.mod_eq_of_lt h

theorem fee32_eq (C : Crypto) (l : LinearFee) (t : Tx) (k : Nat) : orZero32 (fee32 C l t k) = (orZero (fee C l t k)).toUInt32 := by
  unfold fee32 fee
  cases calcAux C t k with
  | ok b =>
    simp only [Res.ok_bind]
    cases marshalTx { t with body := b } (k + 1) with
    | ok bs =>
      simp only [Res.ok_bind]
      show l.txFeeFixed.toUInt32 + l.txFeePerByte.toUInt32 * UInt32.ofNat bs.length = (l.txFeeFixed + l.txFeePerByte * UInt64.ofNat bs.length).toUInt32
      rw [UInt64.toUInt32_add, UInt64.toUInt32_mul]
      congr 2
      apply UInt32.toNat_inj.1
      rw [UInt64.toNat_toUInt32, UInt32.toNat_ofNat', UInt64.toNat_ofNat']
      omega
    | err m => rfl
    | panic => rfl
  | err m => rfl
  | panic => rfl

/-- The change that is left for the two machines to compute: `totalI - totalO - x`. -/
theorem rest32_toNat (b : Builder) (x : UInt32) : ((totalIn32 b.body.inputs - totalOut32 b.body.outputs - x).toUInt64).toNat =
    (sumIn b.body.inputs + (2 ^ 32 - sumOut b.body.outputs % 2 ^ 32) + (2 ^ 32 - x.toNat)) % 2 ^ 32 := by
  have := x.toNat_lt
  rw [UInt32.toNat_toUInt64, UInt32.toNat_sub, UInt32.toNat_sub, totalIn32_toNat, totalOut32_toNat]
  omega

theorem rest32_eq (b : Builder) (x : UInt64) (hI : sumIn b.body.inputs < 2 ^ 64) (hx : sumOut b.body.outputs + x.toNat ≤ sumIn b.body.inputs)
    (hd : sumIn b.body.inputs - sumOut b.body.outputs - x.toNat < 2 ^ 32) :
    (totalIn32 b.body.inputs - totalOut32 b.body.outputs - x.toUInt32).toUInt64 = totalIn b.body.inputs - totalOut b.body.outputs - x := by
  rw [totalIn32_eq, totalOut32_eq, ← UInt64.toUInt32_sub, ← UInt64.toUInt32_sub]
  apply up_down
  rw [sub_toNat b x hI hx]
  exact hd

theorem feeTx32_eq (C : Crypto) (b : Builder) (k : Nat) (hI : sumIn b.body.inputs < 2 ^ 64) (hx : sumOut b.body.outputs + 200000 ≤ sumIn b.body.inputs)
    (hd : sumIn b.body.inputs - sumOut b.body.outputs < 2 ^ 32) : feeTx32 C b k = feeTx C b k := by
  have h1 := rest32_eq b 200000 hI (by rw [show (200000 : UInt64).toNat = 200000 from rfl]; omega) (by rw [show (200000 : UInt64).toNat = 200000 from rfl]; omega)
  rw [show (200000 : UInt64).toUInt32 = 200000 from rfl] at h1
  have h2 : totalIn b.body.inputs ≠ totalOut b.body.outputs := total_ne b hI (by omega)
  have h3 : totalIn32 b.body.inputs ≠ totalOut32 b.body.outputs := by
    intro e
    have := congrArg UInt32.toNat e
    rw [totalIn32_toNat, totalOut32_toNat] at this
    omega
  unfold feeTx32 feeTx
  dsimp only
  rw [if_pos h2, if_pos h3, h1]

theorem feePasses32_eq (C : Crypto) (l : LinearFee) (t : Tx) (k : Nat) (h1 : (orZero (fee C l t k)).toNat < 2 ^ 32) :
    feePasses32 C l t k = (feePasses C l t k).toUInt32 := by
  unfold feePasses32 feePasses
  dsimp only
  rw [fee32_eq, fee32_eq, up_down _ h1]

/-- The state after `AddChangeIfNeeded` is the same. -/
theorem addChange32_eq (C : Crypto) (b : Builder) (addr : Address) (hI : sumIn b.body.inputs < 2 ^ 64) (hx : sumOut b.body.outputs + 200000 ≤ sumIn b.body.inputs)
    (hd : sumIn b.body.inputs - sumOut b.body.outputs < 2 ^ 32) (hc : sumOut b.body.outputs + (MinFee C b).1.toNat ≤ sumIn b.body.inputs)
    (h1 : (orZero (fee C ⟨b.protocol.txFeePerByte, b.protocol.txFeeFixed⟩ (feeTx C b b.clock) (b.clock + 1))).toNat < 2 ^ 32) :
    AddChangeIfNeeded32 C b addr = AddChangeIfNeeded C b addr := by
  have hm : (MinFee32 C b).1 = (MinFee C b).1.toUInt32 := by
    unfold MinFee32 MinFee
    dsimp only
    rw [feeTx32_eq C b _ hI hx hd]
    exact feePasses32_eq C _ _ _ h1
  have hf : (MinFee32 C b).1.toUInt64 = (MinFee C b).1 := by rw [hm]; exact up_down _ (by omega)
  have hr := rest32_eq b (MinFee C b).1 hI hc (by omega)
  show AddOutputs (SetFee (MinFee32 C b).2 (MinFee32 C b).1.toUInt64) [⟨addr, (totalIn32 b.body.inputs - totalOut32 b.body.outputs - (MinFee32 C b).1.toUInt64.toUInt32).toUInt64⟩] = _
  rw [hf, hr]
  rfl

end Machine32
open Machine32

/-- What the user of the builder did, as `Built`, on a machine where `uint` has 32 bits. -/
structure Built32 (C : Crypto) (b : Builder) (addr : Address) (keys : List Bytes) (t : Tx) (bs : Bytes) : Prop where
  run : ∃ h b' k, Build C (keys.foldl Sign (AddChangeIfNeeded32 C b addr)) = (.ok h, b') ∧ view b' h = t ∧ bytes C t k = .ok bs

/-- **C149: the same transaction.** Where what the inputs have more than the outputs is less than `2^32` (4294 ada), but covers the fee and 200000, a machine with 32-bit numbers
builds the transaction that a machine with 64-bit numbers builds, though the totals may exceed 32 bits. -/
theorem C149_same_transaction (C : Crypto) (b : Builder) (addr : Address) (keys : List Bytes) (t : Tx) (bs ab : Bytes)
    (hb : Built C b addr keys t bs) (hr : Regular C b) (hkl : (b.xprvs ++ keys).length < 2 ^ 63) (hwl : (tx b).witness.length ≤ 100)
    (hol : b.body.outputs.length < 2 ^ 32) (hab : marshalAddress addr = .ok ab)
    (hI : sumIn b.body.inputs < 2 ^ 64) (hcover : sumOut b.body.outputs + t.body.fee.toNat ≤ sumIn b.body.inputs)
    (hcover2 : sumOut b.body.outputs + 200000 ≤ sumIn b.body.inputs) (hrest : sumIn b.body.inputs - sumOut b.body.outputs < 2 ^ 32)
    (hfix : b.protocol.txFeeFixed.toNat < 2 ^ 31) (hper : b.protocol.txFeePerByte.toNat < 2 ^ 16) (hmax : bs.length ≤ 16384) :
    Built32 C b addr keys t bs := by
  obtain ⟨h, b', k, e, rfl, eb⟩ := hb.run
  obtain ⟨m, hm⟩ := hr.md
  have hwl' : (witAt b b.wit).length ≤ 100 := hwl
  obtain ⟨len1, len2, fee1, f0, f1, f2, hl, hf, hs⟩ := built_size_first C hr.hash hr.key hr.sig b addr keys m ab hm hr.aux hr.wits
    (by omega) hkl (by omega) hab (total_ne b hI (by omega)) h b' e k bs eb
  rw [hf] at hcover
  have hwmax : wsize (feeWits b).length ≤ 10111 := by
    have hfw : (feeWits b).length ≤ 100 := by
      unfold feeWits; split
      · decide
      · omega
    have := uintSize_le (feeWits b).length
    unfold wsize; split <;> omega
  have u1 := uintSize_le b.body.fee.toNat
  have u2 := uintSize_le fee1.toNat
  have u4 := uintSize_le (totalIn b.body.inputs - totalOut b.body.outputs - 200000).toNat
  have hl1 : len1 < 2 ^ 15 := by omega
  have hmul : b.protocol.txFeePerByte.toNat * len1 < 2 ^ 31 := by
    calc b.protocol.txFeePerByte.toNat * len1 ≤ b.protocol.txFeePerByte.toNat * 2 ^ 15 := Nat.mul_le_mul_left _ (by omega)
      _ < 2 ^ 16 * 2 ^ 15 := Nat.mul_lt_mul_of_pos_right hper (by decide)
      _ = 2 ^ 31 := by decide
  have F1 := toNat_formula b.protocol.txFeeFixed b.protocol.txFeePerByte len1 (by omega) (by omega)
  rw [← f1] at F1
  have key := addChange32_eq C b addr hI hcover2 hrest hcover (by rw [← f0, F1]; omega)
  exact ⟨h, b', k, by rw [key]; exact e, rfl, eb⟩

/-- **C149: conservation.** After `AddChangeIfNeeded` on such a machine, inputs and outputs with fee are equal modulo `2^32`; they are equal exactly if the change is a
number of 32 bits: neither negative nor `2^32` or more. No call reports the contrary. -/
theorem C149_conservation (C : Crypto) (b : Builder) (addr : Address) :
    let b' := AddChangeIfNeeded32 C b addr
    b'.body.inputs = b.body.inputs ∧ (∃ change, b'.body.outputs = b.body.outputs ++ [⟨addr, change⟩] ∧ change.toNat < 2 ^ 32) ∧ b'.body.fee.toNat < 2 ^ 32 ∧
    sumIn b'.body.inputs % 2 ^ 32 = (sumOut b'.body.outputs + b'.body.fee.toNat) % 2 ^ 32 ∧
    (sumIn b'.body.inputs = sumOut b'.body.outputs + b'.body.fee.toNat ↔
      sumOut b.body.outputs + b'.body.fee.toNat ≤ sumIn b.body.inputs ∧ sumIn b.body.inputs < sumOut b.body.outputs + b'.body.fee.toNat + 2 ^ 32) := by
  have hfee : (AddChangeIfNeeded32 C b addr).body.fee = (MinFee32 C b).1.toUInt64 := rfl
  have hin : (AddChangeIfNeeded32 C b addr).body.inputs = b.body.inputs := rfl
  have hout : (AddChangeIfNeeded32 C b addr).body.outputs = b.body.outputs ++
      [⟨addr, (totalIn32 b.body.inputs - totalOut32 b.body.outputs - (MinFee32 C b).1.toUInt64.toUInt32).toUInt64⟩] := rfl
  have hx := (MinFee32 C b).1.toNat_lt
  have hd : (MinFee32 C b).1.toUInt64.toUInt32 = (MinFee32 C b).1 := by simp
  rw [hd] at hout
  have hc := rest32_toNat b (MinFee32 C b).1
  dsimp only
  rw [hin, hout, hfee, sumOut_snoc, UInt32.toNat_toUInt64]
  dsimp only
  rw [hc]
  refine ⟨rfl, ⟨_, rfl, ?_⟩, hx, by omega, by omega⟩
  rw [hc]; omega

/-- **C149: the ledger.** If the amounts of the inputs are right, the ledger accepts only transactions whose change fits 32 bits; the user of a machine with 32-bit numbers loses
nothing by a change that does not, but cannot make such a transaction with one change output. -/
theorem C149_accepted_fits (H : Hashes) (hH : H.Ok) (blake224 blake256 : Bytes → Bytes) (h256 : ∀ m, (blake256 m).length = 32)
    (b : Builder) (addr : Address) (keys : List Bytes) (bs : Bytes) (u : UTxO) (e : Env)
    (hf : BuilderFits (keys.foldl Sign (AddChangeIfNeeded32 (packageCrypto H blake256) b addr)))
    (hy : Finishes (packageCrypto H blake256) (keys.foldl Sign (AddChangeIfNeeded32 (packageCrypto H blake256) b addr)) bs)
    (hu : ∑ r ∈ (b.body.inputs.map refOf).toFinset, u.amount r = sumIn b.body.inputs)
    (hval : Ledger.Valid (ledgerCrypto H blake224 blake256) e u bs) :
    sumOut b.body.outputs + (AddChangeIfNeeded32 (packageCrypto H blake256) b addr).body.fee.toNat ≤ sumIn b.body.inputs ∧
    sumIn b.body.inputs < sumOut b.body.outputs + (AddChangeIfNeeded32 (packageCrypto H blake256) b addr).body.fee.toNat + 2 ^ 32 := by
  obtain ⟨v, hv, ha⟩ := hval
  obtain ⟨r1, r2, r3, -, -⟩ := finish_read H hH blake256 h256 _ bs hf hy v hv
  rw [foldl_sign] at r1 r2 r3
  dsimp only at r1 r2 r3
  have hcons := ha.conserved
  rw [r1, r2, r3, sum_map_outOf] at hcons
  obtain ⟨c1, -, -, -, c5⟩ := C149_conservation (packageCrypto H blake256) b addr
  rw [c1, hu] at hcons
  exact c5.1 (by rw [c1]; exact hcons)

/-! ### The lists of unspent outputs -/
open Node

theorem Atoi32_iff (s : Bytes) (n : Int) : Atoi32 s = .ok n ↔ WritesInt s n ∧ -2 ^ 31 ≤ n ∧ n < 2 ^ 31 := by
  match s with
  | [] =>
    unfold Atoi32
    refine Iff.intro (fun h => by cases h) ?_
    rintro ⟨⟨sign, digits, e, hd, _⟩, _⟩
    exact absurd (List.append_eq_nil_iff.1 e.symm).2 hd
  | c :: cs =>
    unfold Atoi32
    dsimp only
    constructor
    · intro h
      obtain ⟨un, hun, h⟩ := Addr.bind_ok h
      obtain ⟨p1, p2, p3, p4⟩ := (ParseUint_ok _ _ _).1 hun
      subst p3
      by_cases h45 : c = 45
      · subst h45
        rw [if_pos (Or.inl rfl)] at p1 p2 p4 h
        rw [if_pos rfl] at h
        by_cases hb : decFrom 0 cs > 2 ^ 31
        · rw [if_pos hb] at h; cases h
        · rw [if_neg hb] at h
          have := Res.ok.inj h
          subst this
          exact ⟨⟨[45], cs, rfl, p1, p2, Or.inr ⟨rfl, rfl⟩⟩, by omega, by omega⟩
      · rw [if_neg h45] at h
        by_cases h43 : c = 43
        · subst h43
          rw [if_pos (Or.inr rfl)] at p1 p2 p4 h
          by_cases hb : decFrom 0 cs ≥ 2 ^ 31
          · rw [if_pos hb] at h; cases h
          · rw [if_neg hb] at h
            have := Res.ok.inj h
            subst this
            exact ⟨⟨[43], cs, rfl, p1, p2, Or.inl ⟨Or.inr rfl, rfl⟩⟩, by omega, by omega⟩
        · have hs : ¬ (c = 45 ∨ c = 43) := by rintro (x | x) <;> contradiction
          rw [if_neg hs] at p1 p2 p4 h
          by_cases hb : decFrom 0 (c :: cs) ≥ 2 ^ 31
          · rw [if_pos hb] at h; cases h
          · rw [if_neg hb] at h
            have := Res.ok.inj h
            subst this
            exact ⟨⟨[], c :: cs, rfl, p1, p2, Or.inl ⟨Or.inl rfl, rfl⟩⟩, by omega, by omega⟩
    · rintro ⟨⟨sign, digits, e, d1, d2, hs⟩, l, u⟩
      rcases hs with ⟨rfl | rfl, rfl⟩ | ⟨rfl, rfl⟩
      · rw [List.nil_append] at e
        subst e
        have hc := d2 c (by simp)
        have hs : ¬ (c = 45 ∨ c = 43) := by
          rintro (rfl | rfl)
          · exact absurd hc.1 (by decide)
          · exact absurd hc.1 (by decide)
        have h45 : ¬ c = 45 := fun x => hs (Or.inl x)
        rw [if_neg hs, (ParseUint_ok 32 (c :: cs) _).2 ⟨d1, d2, rfl, by omega⟩, Res.ok_bind, if_neg h45, if_neg (by omega)]
        rfl
      · obtain ⟨rfl, rfl⟩ := List.cons.inj e
        rw [if_pos (Or.inr rfl)]
        rw [(ParseUint_ok 32 cs _).2 ⟨d1, d2, rfl, by omega⟩, Res.ok_bind, if_neg (by decide), if_neg (by omega)]
        rfl
      · obtain ⟨rfl, rfl⟩ := List.cons.inj e
        rw [if_pos (Or.inl rfl)]
        rw [(ParseUint_ok 32 cs _).2 ⟨d1, d2, rfl, by omega⟩, Res.ok_bind, if_pos rfl, if_neg (by omega)]
        rfl

theorem Atoi32_Atoi (s : Bytes) (n : Int) (h : Atoi32 s = .ok n) : Atoi s = .ok n := by
  obtain ⟨h1, h2, h3⟩ := (Atoi32_iff s n).1 h
  exact (Atoi_iff s n).2 ⟨h1, by omega, by omega⟩

theorem toUint32_nat (n : Int) : ((toUint32 n).toNat : Int) = n % 2 ^ 32 := by
  unfold toUint32
  rw [UInt32.toNat_toUInt64, UInt32.ofInt, UInt32.toNat_ofNat']; omega

/-- The amounts of the two machines: the same, if the number is not negative. -/
theorem toUint32_eq (n : Int) (h0 : 0 ≤ n) (h : n < 2 ^ 32) : toUint32 n = toUint n := by
  apply UInt64.toNat_inj.1
  have h1 := toNat_toUint n
  have h2 := toUint32_nat n
  omega

/-- The input of a 32-bit machine and that of a 64-bit machine: the same output, and the same amount, which is below `2^31`, unless the amount was given as a negative number. -/
def SameInput (i j : TxInput) : Prop :=
  i.txHash = j.txHash ∧ i.index = j.index ∧ (j.amount.toNat < 2 ^ 63 → i.amount = j.amount ∧ i.amount.toNat < 2 ^ 31)

theorem sameAmount (n : Int) (h1 : -2 ^ 31 ≤ n) (h2 : n < 2 ^ 31) : (toUint n).toNat < 2 ^ 63 → toUint32 n = toUint n ∧ (toUint32 n).toNat < 2 ^ 31 := by
  intro h
  have e1 := toNat_toUint n
  have e2 := toUint32_nat n
  have h0 : 0 ≤ n := by omega
  exact ⟨toUint32_eq n h0 (by omega), by omega⟩

theorem sumAmount32_of (ams : List Amount) : ∀ a a' r : UInt64, (a'.toNat < 2 ^ 63 → a = a' ∧ a.toNat < 2 ^ 31) → sumAmount32 ams a = .ok r →
    ∃ r', sumAmount ams a' = .ok r' ∧ (r'.toNat < 2 ^ 63 → r = r' ∧ r.toNat < 2 ^ 31) := by
  induction ams with
  | nil => intro a a' r h e; exact ⟨a', rfl, by rw [← Res.ok.inj e]; exact h⟩
  | cons am ams ih =>
    intro a a' r h e
    unfold sumAmount32 at e
    unfold sumAmount
    split
    · rename_i hu
      rw [if_pos hu] at e
      obtain ⟨v, hv, e⟩ := Addr.bind_ok e
      obtain ⟨-, b1, b2⟩ := (Atoi32_iff _ _).1 hv
      rw [Atoi32_Atoi _ _ hv, Res.ok_bind]
      exact ih _ _ _ (sameAmount v b1 b2) e
    · rename_i hu
      rw [if_neg hu] at e
      exact ih _ _ _ h e

/-- **C149: unspent outputs of the service.** If the list is made at all on a machine with 32-bit numbers, it is the list made on the others, with amounts below `2^31`. -/
theorem C149_listing (us : List Utxo) (l : List TxInput) (h : convertUTXOs32 us = .ok l) : ∃ l', convertUTXOs us = .ok l' ∧ All2 SameInput l l' := by
  induction us generalizing l with
  | nil => exact ⟨[], rfl, by rw [← Res.ok.inj h]; exact .nil⟩
  | cons u us ih =>
    unfold convertUTXOs32 at h
    obtain ⟨a, ha, h⟩ := Addr.bind_ok h
    obtain ⟨is, his, h⟩ := Addr.bind_ok h
    obtain ⟨is', h1, h2⟩ := ih is his
    obtain ⟨a', h3, h4⟩ := sumAmount32_of u.amount 0 0 a (fun _ => ⟨rfl, by decide⟩) ha
    refine ⟨NewTxInput u.txHash (UInt16.ofInt u.outputIndex) a' :: is', ?_, ?_⟩
    · unfold convertUTXOs
      rw [h3, Res.ok_bind, h1]; rfl
    · rw [← Res.ok.inj h]
      exact .cons ⟨rfl, rfl, h4⟩ h2

/-- **C149: when the list is made.** Exactly if every amount in lovelace is a number from `-2^31` to `2^31 - 1` in decimal: with an unspent output of 2147.483648 ada or more there is an error. -/
theorem C149_listing_exactly (us : List Utxo) : (∃ l, convertUTXOs32 us = .ok l) ↔
    ∀ u ∈ us, ∀ a ∈ u.amount, a.unit = lovelaceUnit → ∃ n, WritesInt a.quantity n ∧ -2 ^ 31 ≤ n ∧ n < 2 ^ 31 := by
  have hsum : ∀ (ams : List Amount) (x : UInt64), (∃ r, sumAmount32 ams x = .ok r) ↔
      ∀ a ∈ ams, a.unit = lovelaceUnit → ∃ n, WritesInt a.quantity n ∧ -2 ^ 31 ≤ n ∧ n < 2 ^ 31 := by
    intro ams
    induction ams with
    | nil => intro x; exact ⟨fun _ a ha => (nomatch ha), fun _ => ⟨x, rfl⟩⟩
    | cons am ams ih =>
      intro x
      unfold sumAmount32
      rw [lovelace_eq]
      by_cases hu : am.unit = lovelaceUnit
      · rw [if_pos hu]
        constructor
        · rintro ⟨r, hr⟩ a ha hau
          obtain ⟨v, hv, hr⟩ := Addr.bind_ok hr
          rcases List.mem_cons.1 ha with rfl | ha
          · exact ⟨v, (Atoi32_iff _ _).1 hv⟩
          · exact (ih _).1 ⟨r, hr⟩ a ha hau
        · intro h
          obtain ⟨n, hn⟩ := h am (by simp) hu
          rw [(Atoi32_iff _ _).2 hn, Res.ok_bind]
          exact (ih _).2 (fun a ha => h a (List.mem_cons_of_mem _ ha))
      · rw [if_neg hu, ih]
        constructor
        · intro h a ha hau
          rcases List.mem_cons.1 ha with rfl | ha
          · exact absurd hau hu
          · exact h a ha hau
        · exact fun h a ha => h a (List.mem_cons_of_mem _ ha)
  induction us with
  | nil => exact ⟨fun _ u hu => (nomatch hu), fun _ => ⟨[], rfl⟩⟩
  | cons u us ih =>
    unfold convertUTXOs32
    constructor
    · rintro ⟨l, hl⟩ u' hu'
      obtain ⟨a, ha, hl⟩ := Addr.bind_ok hl
      obtain ⟨is, his, hl⟩ := Addr.bind_ok hl
      rcases List.mem_cons.1 hu' with rfl | hu'
      · exact (hsum _ _).1 ⟨a, ha⟩
      · exact ih.1 ⟨is, his⟩ u' hu'
    · intro h
      obtain ⟨a, ha⟩ := (hsum u.amount 0).2 (h u (by simp))
      obtain ⟨is, his⟩ := ih.2 (fun u' hu' => h u' (List.mem_cons_of_mem _ hu'))
      exact ⟨_, by rw [ha, Res.ok_bind, his]; rfl⟩

/-- **C149: unspent outputs of cardano-cli.** The same for the rows that the process prints. (That `UTXOs` panics before it reads any is C45.) -/
theorem C149_listing_rows (rows : List Bytes) : ∀ l, parseRows32 rows = .ok l → ∃ l', parseRows rows = .ok l' ∧ All2 SameInput l l' := by
  induction rows with
  | nil => intro l h; exact ⟨[], rfl, by rw [← Res.ok.inj h]; exact .nil⟩
  | cons row rows ih =>
    intro l h
    unfold parseRows32 at h
    obtain ⟨i, hi, h⟩ := Addr.bind_ok h
    obtain ⟨is, his, h⟩ := Addr.bind_ok h
    obtain ⟨is', h1, h2⟩ := ih is his
    unfold parseRow32 at hi
    obtain ⟨s1, g1, hi⟩ := Addr.bind_ok hi
    obtain ⟨ix, g2, hi⟩ := Addr.bind_ok hi
    obtain ⟨s2, g3, hi⟩ := Addr.bind_ok hi
    obtain ⟨s3, g4, hi⟩ := Addr.bind_ok hi
    obtain ⟨v, g5, hi⟩ := Addr.bind_ok hi
    obtain ⟨s0, g6, hi⟩ := Addr.bind_ok hi
    obtain ⟨-, b1, b2⟩ := (Atoi32_iff _ _).1 g5
    have hrow : parseRow row = .ok (NewTxInput s0 (UInt16.ofNat ix) (toUint v)) := by
      unfold parseRow
      simp only [g1, g2, g3, g4, Atoi32_Atoi _ _ g5, g6, Res.ok_bind]
      rfl
    refine ⟨NewTxInput s0 (UInt16.ofNat ix) (toUint v) :: is', ?_, ?_⟩
    · unfold parseRows
      rw [hrow, Res.ok_bind, h1]; rfl
    · rw [← Res.ok.inj h, ← Res.ok.inj hi]
      exact .cons ⟨rfl, rfl, sameAmount v b1 b2⟩ h2

/-- The amount, as an `int`, needs at most 32 bits. -/
def SmallAmount (i : TxInput) : Prop := i.amount.toNat < 2 ^ 31 ∨ 2 ^ 64 - 2 ^ 31 ≤ i.amount.toNat

theorem toUint_small (v : Int) (h1 : -2 ^ 63 ≤ v) (h2 : v < 2 ^ 63) : ((toUint v).toNat < 2 ^ 31 ∨ 2 ^ 64 - 2 ^ 31 ≤ (toUint v).toNat) ↔ -2 ^ 31 ≤ v ∧ v < 2 ^ 31 := by
  have := toNat_toUint v
  omega

theorem ParseUint_not_panic (bits : Nat) (s : Bytes) : ParseUint bits s ≠ .panic := by
  unfold ParseUint
  split
  · exact fun e => nomatch e
  · exact parseLoop_not_panic _ _ _

theorem Atoi_not_panic (s : Bytes) : Atoi s ≠ .panic := by
  unfold Atoi
  split
  · exact fun e => nomatch e
  · intro e
    rcases Addr.bind_panic e with e | ⟨un, -, e⟩
    · exact ParseUint_not_panic _ _ e
    · split at e <;> split at e <;> exact nomatch e

theorem Atoi32_not_panic (s : Bytes) : Atoi32 s ≠ .panic := by
  unfold Atoi32
  split
  · exact fun e => nomatch e
  · intro e
    rcases Addr.bind_panic e with e | ⟨un, -, e⟩
    · exact ParseUint_not_panic _ _ e
    · split at e <;> split at e <;> exact nomatch e

/-- One row, read by both machines. -/
theorem parseRow32_cases (row : Bytes) : (∃ i i', parseRow32 row = .ok i ∧ parseRow row = .ok i' ∧ SmallAmount i') ∨
    ((∃ m, parseRow32 row = .err m) ∧ ((∃ m, parseRow row = .err m) ∨ ∃ i, parseRow row = .ok i ∧ ¬ SmallAmount i)) ∨ (parseRow32 row = .panic ∧ parseRow row = .panic) := by
  unfold parseRow32 parseRow
  dsimp only
  cases e1 : index (fields row) 1 with
  | err m => exact .inr (.inl ⟨⟨_, rfl⟩, .inl ⟨_, rfl⟩⟩)
  | panic => exact .inr (.inr ⟨rfl, rfl⟩)
  | ok s1 =>
    simp only [Res.ok_bind]
    obtain ⟨s0, e0⟩ : ∃ s0, index (fields row) 0 = .ok s0 := by
      unfold index at e1 ⊢
      cases hr : fields row with
      | nil => rw [hr] at e1; exact nomatch e1
      | cons x l => exact ⟨x, rfl⟩
    rw [e0]
    cases ParseUint 16 s1 with
    | err m => exact .inr (.inl ⟨⟨_, rfl⟩, .inl ⟨_, rfl⟩⟩)
    | panic => exact .inr (.inr ⟨rfl, rfl⟩)
    | ok ix =>
      simp only [Res.ok_bind]
      cases index (fields row) 2 with
      | err m => exact .inr (.inl ⟨⟨_, rfl⟩, .inl ⟨_, rfl⟩⟩)
      | panic => exact .inr (.inr ⟨rfl, rfl⟩)
      | ok s2 =>
        simp only [Res.ok_bind]
        cases index (fields s2) 0 with
        | err m => exact .inr (.inl ⟨⟨_, rfl⟩, .inl ⟨_, rfl⟩⟩)
        | panic => exact .inr (.inr ⟨rfl, rfl⟩)
        | ok s3 =>
          simp only [Res.ok_bind]
          cases e : Atoi32 s3 with
          | ok v =>
            obtain ⟨-, b1, b2⟩ := (Atoi32_iff _ _).1 e
            rw [Atoi32_Atoi _ _ e]
            exact .inl ⟨_, _, rfl, rfl, (toUint_small v (by omega) (by omega)).2 ⟨b1, b2⟩⟩
          | panic => exact absurd e (Atoi32_not_panic _)
          | err m =>
            refine .inr (.inl ⟨⟨_, rfl⟩, ?_⟩)
            cases e' : Atoi s3 with
            | err m' => exact .inl ⟨_, rfl⟩
            | panic => exact absurd e' (Atoi_not_panic _)
            | ok v =>
              obtain ⟨w, b1, b2⟩ := (Atoi_iff _ _).1 e'
              refine .inr ⟨_, rfl, fun h => ?_⟩
              have := (Atoi32_iff s3 v).2 ⟨w, (toUint_small v b1 b2).1 h⟩
              rw [e] at this
              exact nomatch this

/-- **C149: when the list of cardano-cli is made.** A 32-bit machine lists the rows exactly if a 64-bit machine does and no amount needs more than 32 bits; it panics only where a
64-bit machine does. -/
theorem C149_listing_rows_exactly (rows : List Bytes) :
    ((∃ l, parseRows32 rows = .ok l) ↔ ∃ l, parseRows rows = .ok l ∧ ∀ i ∈ l, i.amount.toNat < 2 ^ 31 ∨ 2 ^ 64 - 2 ^ 31 ≤ i.amount.toNat) ∧
      (parseRows32 rows = .panic → parseRows rows = .panic) := by
  induction rows with
  | nil => exact ⟨⟨fun _ => ⟨[], rfl, (nofun)⟩, fun _ => ⟨[], rfl⟩⟩, fun e => nomatch e⟩
  | cons row rows ih =>
    unfold parseRows32 parseRows
    rcases parseRow32_cases row with ⟨i, i', e, e', hs⟩ | ⟨⟨m, e⟩, h⟩ | ⟨e, e'⟩
    · rw [e, e']
      simp only [Res.ok_bind]
      refine ⟨⟨?_, ?_⟩, ?_⟩
      · rintro ⟨l, h⟩
        obtain ⟨is, his, -⟩ := Addr.bind_ok h
        obtain ⟨is', h1, h2⟩ := ih.1.1 ⟨is, his⟩
        refine ⟨i' :: is', by rw [h1]; rfl, ?_⟩
        intro j hj
        rcases List.mem_cons.1 hj with rfl | hj
        · exact hs
        · exact h2 j hj
      · rintro ⟨l, h, hl⟩
        obtain ⟨is', h1, h⟩ := Addr.bind_ok h
        have := Res.ok.inj h
        subst this
        obtain ⟨is, his⟩ := ih.1.2 ⟨is', h1, fun j hj => hl j (List.mem_cons_of_mem _ hj)⟩
        exact ⟨i :: is, by rw [his]; rfl⟩
      · intro h
        rcases Addr.bind_panic h with h | ⟨_, _, h⟩
        · rw [ih.2 h]; rfl
        · exact nomatch h
    · rw [e]
      refine ⟨⟨fun ⟨l, h⟩ => (nomatch h), ?_⟩, fun h => nomatch h⟩
      rintro ⟨l, h1, hl⟩
      obtain ⟨i, hi, h1⟩ := Addr.bind_ok h1
      obtain ⟨is, his, h1⟩ := Addr.bind_ok h1
      have := Res.ok.inj h1
      subst this
      rcases h with ⟨m', h⟩ | ⟨j, hj, hn⟩
      · rw [hi] at h; exact nomatch h
      · rw [hi] at hj
        have := Res.ok.inj hj
        subst this
        exact absurd (hl i List.mem_cons_self) hn
    · rw [e, e']
      exact ⟨⟨fun ⟨l, h⟩ => (nomatch h), fun ⟨l, h, _⟩ => (nomatch h)⟩, fun _ => rfl⟩

/-- A row that a 64-bit machine lists and a 32-bit machine does not: an output of 3000 ada. -/
example : (∃ l, parseRows [asc ['0','a',' ','1',' ','3','0','0','0','0','0','0','0','0','0',' ','l']] = .ok l) ∧
    ¬ ∃ l, parseRows32 [asc ['0','a',' ','1',' ','3','0','0','0','0','0','0','0','0','0',' ','l']] = .ok l := by
  have h : parseRows [asc ['0','a',' ','1',' ','3','0','0','0','0','0','0','0','0','0',' ','l']] = .ok [⟨[10], 1, 3000000000⟩] := by decide +kernel
  refine ⟨⟨_, h⟩, fun hl => ?_⟩
  obtain ⟨l, h1, h2⟩ := (C149_listing_rows_exactly _).1.1 hl
  rw [h] at h1
  rw [← Res.ok.inj h1] at h2
  exact absurd (h2 _ (List.mem_singleton.2 rfl)) (by decide)

/-! ### Byron addresses -/

namespace Machine32

/-- A smaller variable: the same number, or an error where the number is too large for it. -/
theorem toUint_smaller (m m' : Nat) (h : m ≤ m') (x : Item) :
    Byron.toUint m x = Byron.toUint m' x ∨ (∃ e, Byron.toUint m x = .err e) ∧ ((∃ e, Byron.toUint m' x = .err e) ∨ ∃ v, Byron.toUint m' x = .ok (some v) ∧ m < v ∧ v ≤ m') := by
  have num : ∀ n : Nat, (if n ≤ m then Res.ok (some n) else .err "cbor: cannot unmarshal, overflows") = (if n ≤ m' then Res.ok (some n) else .err "cbor: cannot unmarshal, overflows") ∨
      (∃ e, (if n ≤ m then Res.ok (some n) else .err "cbor: cannot unmarshal, overflows") = .err e) ∧
        ((∃ e, (if n ≤ m' then Res.ok (some n) else .err "cbor: cannot unmarshal, overflows") = .err e) ∨
          ∃ v, (if n ≤ m' then Res.ok (some n) else .err "cbor: cannot unmarshal, overflows") = .ok (some v) ∧ m < v ∧ v ≤ m') := by
    intro n
    by_cases c : n ≤ m
    · exact .inl (by rw [if_pos c, if_pos (by omega)])
    · refine .inr ⟨⟨_, if_neg c⟩, ?_⟩
      by_cases c' : n ≤ m'
      · exact .inr ⟨n, if_pos c', by omega, c'⟩
      · exact .inl ⟨_, if_neg c'⟩
  induction x using Byron.toUint.induct m with
  | case1 n c => unfold Byron.toUint; exact num n
  | case2 n c => unfold Byron.toUint; exact num n
  | case3 n c => left; simp only [Byron.toUint, c, if_true]
  | case4 n c c' => left; simp only [Byron.toUint, c, c', if_true, if_false]
  | case5 n c c' c'' => have := num n; unfold Byron.toUint; rw [if_neg c, if_neg c']; rw [if_neg c, if_neg c']; exact this
  | case6 n c c' c'' => have := num n; unfold Byron.toUint; rw [if_neg c, if_neg c']; rw [if_neg c, if_neg c']; exact this
  | case7 b c => unfold Byron.toUint; exact num (beVal b)
  | case8 b c => unfold Byron.toUint; exact num (beVal b)
  | case9 x c => left; simp_all [Byron.toUint]
  | case10 x => left; simp_all [Byron.toUint]
  | case11 => simp_all [Byron.toUint]
  | case12 => left; simp_all [Byron.toUint]

end Machine32

/-- The same result, but for the text of an error. -/
def SameResult {α : Type} (r r' : Res α) : Prop := r = r' ∨ ∃ e e', r = .err e ∧ r' = .err e'

theorem SameResult.refl {α : Type} (r : Res α) : SameResult r r := .inl rfl

/-- What `UnmarshalCBOR` makes of the payload: the same, or on the smaller machine an error where on the other the type is a number of more than 32 bits. -/
theorem decodeRaw32_of (strict : Bool) (raw : Bytes) :
    Byron.decodeRaw32 strict raw = Byron.decodeRaw strict raw ∨ (∃ e, Byron.decodeRaw32 strict raw = .err e) ∧
      ((∃ e, Byron.decodeRaw strict raw = .err e) ∨ ∃ b, Byron.decodeRaw strict raw = .ok b ∧ b.tag ≠ 0) := by
  unfold Byron.decodeRaw32 Byron.decodeRaw
  cases Cbor.parseFirst raw with
  | none => exact .inl rfl
  | some p =>
    obtain ⟨x, rest⟩ := p
    dsimp only
    split
    · exact .inl rfl
    generalize Byron.stripTags x = y
    by_cases hy : ∃ h a t, y = .array [h, a, t]
    · obtain ⟨h, a, t, rfl⟩ := hy
      dsimp only
      cases Byron.toBytes h with
      | err e => exact .inl rfl
      | panic => exact .inl rfl
      | ok hash =>
        simp only [Res.ok_bind]
        cases Byron.toAttrs a with
        | err e => exact .inl rfl
        | panic => exact .inl rfl
        | ok attrs =>
          simp only [Res.ok_bind]
          rcases Machine32.toUint_smaller (2 ^ 32 - 1) (2 ^ 64 - 1) (by decide) t with e | ⟨⟨e, he⟩, ⟨e', he'⟩ | ⟨v, hv, h1, h2⟩⟩
          · rw [e]; exact .inl rfl
          · rw [he, he']; exact .inr ⟨⟨_, rfl⟩, .inl ⟨_, rfl⟩⟩
          · rw [he, hv]
            refine .inr ⟨⟨_, rfl⟩, .inr ⟨_, rfl, ?_⟩⟩
            intro h0
            have := congrArg UInt64.toNat h0
            simp only [Option.getD_some, UInt64.toNat_ofNat', UInt64.toNat_zero] at this
            rw [Nat.mod_eq_of_lt (by omega)] at this
            omega
    · left
      split
      · exact absurd ⟨_, _, _, rfl⟩ hy
      · rfl
      · split <;> first | rfl | (exfalso; simp_all)

/-- **C150: Byron addresses.** The same bytes are accepted, as the same address, and the same are not. -/
theorem C150_byron_address (strict : Bool) (data : Bytes) : SameResult (Byron.unmarshal32 strict data) (Byron.unmarshal strict data) := by
  unfold Byron.unmarshal32 Byron.unmarshal
  cases Cbor.parseFirst data with
  | none => exact .refl _
  | some p =>
    obtain ⟨x, rest⟩ := p
    dsimp only
    split
    · exact .refl _
    unfold Byron.ofItem32 Byron.ofItem
    generalize Byron.stripTags x = y
    by_cases hy : ∃ t c, y = .array [t, c]
    · obtain ⟨t, c, rfl⟩ := hy
      dsimp only
      cases Byron.toUint (2 ^ 32 - 1) c with
      | err e => exact .refl _
      | panic => exact .refl _
      | ok crc =>
        simp only [Res.ok_bind]
        by_cases ht : ∃ n rawTag, t = .tag n (.bytes rawTag)
        · obtain ⟨n, rawTag, rfl⟩ := ht
          dsimp only
          split
          · exact .refl _
          split
          · exact .refl _
          rcases decodeRaw32_of strict rawTag with e | ⟨⟨e, he⟩, ⟨e', he'⟩ | ⟨b, hb, hb0⟩⟩
          · rw [e]; exact .refl _
          · rw [he, he']; exact .inr ⟨_, _, rfl, rfl⟩
          · rw [he, hb]
            refine .inr ⟨e, "", rfl, ?_⟩
            simp only [Res.ok_bind]
            rw [if_pos (.inr hb0)]
        · left
          split
          · exact absurd ⟨_, _, rfl⟩ ht
          all_goals first | rfl | (split <;> first | rfl | (exfalso; simp_all))
    · left
      split
      · exact absurd ⟨_, _, rfl⟩ hy
      · split <;> first | rfl | (exfalso; simp_all)

/-- **C150: addresses.** The bytes that `NewAddressFromBytes` accepts, and the addresses it makes of them, are those of a 64-bit machine. -/
theorem C150_address_bytes (strict : Bool) (data spare : Bytes) : SameResult (Addr.NewAddressFromBytes32 strict data spare) (Addr.NewAddressFromBytes strict data spare) := by
  cases data with
  | nil => exact .refl _
  | cons c t =>
    unfold Addr.NewAddressFromBytes32
    dsimp only
    split
    · rename_i h
      unfold Addr.NewAddressFromBytes
      dsimp only
      rw [if_pos h]
      rcases C150_byron_address strict (c :: t) with e | ⟨e, e', h1, h2⟩
      · rw [e]; exact .refl _
      · rw [h1, h2]; exact .inr ⟨e, e', rfl, rfl⟩
    · exact .refl _

/-- **C150: addresses as text.** -/
theorem C150_address_text (strict : Bool) (raw spare : Bytes) :
    SameResult (Addr.NewAddress32 strict raw spare) (Addr.NewAddress strict raw spare) ∧
      SameResult (Addr.NewAddressFromHex32 strict raw spare) (Addr.NewAddressFromHex strict raw spare) := by
  constructor
  · unfold Addr.NewAddress32 Addr.NewAddress
    split
    · cases Bech32.Decode raw with
      | ok p => exact C150_address_bytes strict p.2 spare
      | err e => exact .refl _
      | panic => exact .refl _
    · exact C150_address_bytes strict _ spare
  · unfold Addr.NewAddressFromHex32 Addr.NewAddressFromHex
    obtain ⟨d, e⟩ := Hex.decode raw
    cases e with
    | none => exact C150_address_bytes strict d spare
    | some e => exact .refl _

/-- `Build` and `Bytes` succeed on any builder with addresses that can be written and keys of the right form. -/
theorem finishes_total (H : Hashes) (hH : H.Ok) (blake256 : Bytes → Bytes) (b : Builder) (hmd : GoodMetadata b.metadata)
    (ho : ∀ o ∈ b.body.outputs, ∃ a, marshalAddress o.address = .ok a) (hk : ∀ k ∈ b.xprvs, k.length = 96 ∧ leNat (k.take 32) < 2 ^ 255) :
    ∃ bs, Finishes (packageCrypto H blake256) b bs := by
  obtain ⟨m, x, hm, -⟩ := goodMetadata_enc _ hmd
  let C := packageCrypto H blake256
  have hmb : ∀ aux, ∃ bb, marshalBody { b.body with auxHash := aux } = .ok bb := by
    intro aux
    obtain ⟨outs, hou⟩ := collect_total b.body.outputs ho
    unfold marshalBody
    simp only [hou, Res.ok_bind]
    exact ⟨_, rfl⟩
  have h1 : calcAux C (tx b) b.clock = .ok { b.body with auxHash := auxOf C b.metadata b.body.auxHash m } := calcAux_of C (tx b) m b.clock (hm _)
  obtain ⟨bb, hbb⟩ := hmb (auxOf C b.metadata b.body.auxHash m)
  obtain ⟨ws, hws⟩ := witnessesOf_total H hH blake256 (blake256 bb) b.xprvs hk
  have hh : Transaction.hash C (tx b) b.clock = .ok (blake256 bb) := by
    unfold Transaction.hash
    rw [h1]; simp only [Res.ok_bind]; rw [hbb]; rfl
  have hB : ∃ h b', Build C b = (.ok h, b') := by
    unfold Build
    simp only [hh]
    rw [show witnessesOf C (blake256 bb) b.xprvs = .ok ws from hws]
    exact ⟨_, _, rfl⟩
  obtain ⟨h, b', e⟩ := hB
  obtain ⟨body, bb', ws', g1, g2, g3, g4, g5⟩ := build_ok C b b' h e
  have hv := view_build b b' h body ws' g4 g5
  rw [h1] at g1
  injection g1 with g1
  have hbs : ∃ bs, bytes C (view b' h) 0 = .ok bs := by
    rw [hv]
    unfold Transaction.bytes
    rw [calcAux_of C ⟨body, ws', b.valid, b.metadata⟩ m 0 (hm 0)]
    simp only [Res.ok_bind]
    unfold marshalTx
    obtain ⟨bb2, hbb2⟩ := hmb (auxOf C b.metadata body.auxHash m)
    dsimp only
    rw [← g1] at hbb2 ⊢
    dsimp only at hbb2 ⊢
    rw [hbb2, hm]
    exact ⟨_, rfl⟩
  obtain ⟨bs, hbs⟩ := hbs
  exact ⟨bs, h, b', 0, e, hbs⟩

/-- **C149: a large change.** If the inputs have `2^32` more than outputs and fee, the machine still makes a transaction without an error; no ledger where the inputs have the
stated amounts accepts it. -/
theorem C149_large_change_rejected (H : Hashes) (hH : H.Ok) (blake224 blake256 : Bytes → Bytes) (h256 : ∀ m, (blake256 m).length = 32)
    (b : Builder) (addr : Address) (hf : BuilderFits b) (ha : AddressFits addr) (hlo : b.body.outputs.length < 2 ^ 32)
    (ho : ∀ o ∈ b.body.outputs, ∃ a, marshalAddress o.address = .ok a) (hc : ∃ a, marshalAddress addr = .ok a)
    (hk : ∀ k ∈ b.xprvs, k.length = 96 ∧ leNat (k.take 32) < 2 ^ 255)
    (hbig : sumOut b.body.outputs + (MinFee32 (packageCrypto H blake256) b).1.toNat + 2 ^ 32 ≤ sumIn b.body.inputs) :
    ∃ bs, Finishes (packageCrypto H blake256) (AddChangeIfNeeded32 (packageCrypto H blake256) b addr) bs ∧
      ∀ (e : Env) (u : UTxO), ∑ r ∈ (b.body.inputs.map refOf).toFinset, u.amount r = sumIn b.body.inputs → ¬ Ledger.Valid (ledgerCrypto H blake224 blake256) e u bs := by
  have hmem : ∀ o ∈ (AddChangeIfNeeded32 (packageCrypto H blake256) b addr).body.outputs, o ∈ b.body.outputs ∨ o.address = addr := by
    intro o h
    rcases List.mem_append.1 h with h | h
    · exact .inl h
    · exact .inr (by rw [List.mem_singleton.1 h])
  have hlen : (AddChangeIfNeeded32 (packageCrypto H blake256) b addr).body.outputs.length = b.body.outputs.length + 1 := List.length_append
  obtain ⟨bs, hy⟩ := finishes_total H hH blake256 (AddChangeIfNeeded32 (packageCrypto H blake256) b addr) hf.metadata
    (by
      intro o h
      rcases hmem o h with h | h
      · exact ho o h
      · rw [h]; exact hc) hk
  refine ⟨bs, hy, fun e u hu hval => ?_⟩
  have hf' : BuilderFits (AddChangeIfNeeded32 (packageCrypto H blake256) b addr) := by
    refine ⟨hf.inputs, by rw [hlen]; omega, hf.keys, hf.ids, ?_, hf.aux, hf.metadata⟩
    intro o h
    rcases hmem o h with h | h
    · exact hf.addrs o h
    · rw [h]; exact ha
  have := (C149_accepted_fits H hH blake224 blake256 h256 b addr [] bs u e hf' hy hu hval).2
  have hfee : (AddChangeIfNeeded32 (packageCrypto H blake256) b addr).body.fee.toNat = (MinFee32 (packageCrypto H blake256) b).1.toNat := by
    show (MinFee32 (packageCrypto H blake256) b).1.toUInt64.toNat = _
    rw [UInt32.toNat_toUInt64]
  omega

/-! ### Concrete cases -/

/-- A Byron address with a derivation path and a network is read on the smaller machine, from its own bytes. -/
example : Byron.unmarshal32 true (Byron.bytes ⟨List.replicate 28 0xab, ⟨[1, 2, 3], some 42⟩, 0⟩) = .ok ⟨List.replicate 28 0xab, ⟨[1, 2, 3], some 42⟩, 0⟩ := by
  rcases C150_byron_address true (Byron.bytes ⟨List.replicate 28 0xab, ⟨[1, 2, 3], some 42⟩, 0⟩) with h | ⟨e, e', h, h'⟩
  · rw [h, Byron.unmarshal_of true _ ⟨rfl, rfl, by decide⟩]
  · rw [Byron.unmarshal_of true _ ⟨rfl, rfl, by decide⟩] at h'
    exact nomatch h'

/-- Where the machines differ: a type of `2^32`. -/
example : Byron.toUint (2 ^ 64 - 1) (.uint (2 ^ 32)) = .ok (some (2 ^ 32)) ∧ ∃ e, Byron.toUint (2 ^ 32 - 1) (.uint (2 ^ 32)) = .err e := ⟨rfl, _, rfl⟩

/-- The sample of C77 on a machine with 32-bit numbers: 10 ada in, 5 ada out, accepted; the hypotheses of `C149_same_transaction` and `C149_accepted_fits` are met. -/
theorem sample32_accepted (H : Hashes) (hH : H.Ok) (blake224 blake256 : Bytes → Bytes) (h256 : ∀ m, (blake256 m).length = 32) :
    ∃ pk t bs, Built32 (packageCrypto H blake256) (sampleSession [sampleKey] 10000000 5000000 sampleAddr).builder sampleAddr [] t bs ∧
      Ledger.Valid (ledgerCrypto H blake224 blake256) (envOf (sampleSession [] 0 0 sampleAddr).protocol 1 0) (sampleUTxO blake224 pk 10000000) bs := by
  obtain ⟨pk, bs, -, hy, hval⟩ := sample_accepted H hH blake224 blake256 h256
  have hfits := sample_fits [sampleKey] (by decide : 1 < 2 ^ 63) 10000000 5000000 sampleAddr (by decide +kernel : (Addr.bytes sampleAddr).length < 2 ^ 63)
  obtain ⟨v, hv, hacc⟩ := id hval
  obtain ⟨-, -, -, h4, -⟩ := session_read H hH blake256 h256 _ _ bs hfits hy v hv
  have hsz : bs.length ≤ 16384 := by rw [← h4]; exact hacc.size
  obtain ⟨t, hb, hfee⟩ := hy
  refine ⟨pk, t, bs, C149_same_transaction _ _ _ _ t bs sampleAddrBytes hb ?_ (by decide : 1 < 2 ^ 63) (by show 0 ≤ 100; decide) (by show 1 < 2 ^ 32; decide) rfl
    (by show 10000000 < 2 ^ 64; decide) (by rw [hfee]; show 5000000 + 167877 ≤ 10000000; decide) (by show 5000000 + 200000 ≤ 10000000; decide)
    (by show 10000000 - 5000000 < 2 ^ 32; decide) (by show 155381 < 2 ^ 31; decide) (by show 44 < 2 ^ 16; decide) hsz, hval⟩
  refine ⟨h256, package_key_length H blake256, package_sig_length H hH blake256, ⟨1, fun k => ⟨encNil, rfl, rfl⟩⟩, fun _ => rfl, ?_⟩
  intro w hw; cases hw

/-- Two inputs of 3000 ada and an output of 5 ada: the change of more than 5994 ada does not fit; all hypotheses of `C149_large_change_rejected` hold. -/
example (H : Hashes) (hH : H.Ok) (blake224 blake256 : Bytes → Bytes) (h256 : ∀ m, (blake256 m).length = 32) :
    ∃ (b : Builder) (bs : Bytes), sumIn b.body.inputs = 6000000000 ∧ sumOut b.body.outputs = 5000000 ∧
      Finishes (packageCrypto H blake256) (AddChangeIfNeeded32 (packageCrypto H blake256) b sampleAddr) bs ∧
      ∀ (e : Env) (u : UTxO), ∑ r ∈ (b.body.inputs.map refOf).toFinset, u.amount r = sumIn b.body.inputs → ¬ Ledger.Valid (ledgerCrypto H blake224 blake256) e u bs := by
  let s0 (ks : List Bytes) : Session := { sampleSession ks 0 5000000 sampleAddr with
    inputs := [⟨List.replicate 32 7, 0, 3000000000⟩, ⟨List.replicate 32 7, 1, 3000000000⟩] }
  have hfee : (MinFee32 (packageCrypto H blake256) (s0 [sampleKey]).builder).1 = (MinFee32 sampleCrypto (s0 []).builder).1 := rfl
  have hfee2 : (MinFee32 sampleCrypto (s0 []).builder).1.toNat < 200000 := by decide +kernel
  have hfit : BuilderFits (s0 [sampleKey]).builder := by
    have := sample_fits [sampleKey] (by decide : 1 < 2 ^ 63) 0 5000000 sampleAddr (by decide +kernel : (Addr.bytes sampleAddr).length < 2 ^ 63)
    exact ⟨(by decide : 2 < 2 ^ 63), (by decide : 1 < 2 ^ 63), this.keys, (by decide : ∀ i ∈ (s0 [sampleKey]).inputs, i.txHash.length < 2 ^ 63), this.addrs, (by decide : 0 < 2 ^ 63), this.metadata⟩
  obtain ⟨bs, h1, h2⟩ := C149_large_change_rejected H hH blake224 blake256 h256 (s0 [sampleKey]).builder sampleAddr hfit (by decide +kernel : (Addr.bytes sampleAddr).length < 2 ^ 63)
    (by show 1 < 2 ^ 32; decide) (by intro o h; rw [List.mem_singleton.1 (show o ∈ [_] from h)]; exact ⟨_, rfl⟩) ⟨_, rfl⟩
    (by intro k h; rw [List.mem_singleton.1 (show k ∈ [_] from h)]; exact sampleKey_ok)
    (by rw [hfee]; show 5000000 + _ + 2 ^ 32 ≤ 6000000000; omega)
  exact ⟨_, bs, rfl, rfl, h1, h2⟩

/-- Lists: 2147.483647 ada is listed as on other machines, one lovelace more is an error. -/
example : convertUTXOs32 [⟨[], 0, [⟨lovelaceUnit, asc ['2','1','4','7','4','8','3','6','4','7']⟩]⟩] = .ok [⟨[], 0, 2147483647⟩] ∧
    convertUTXOs32 [⟨[], 0, [⟨lovelaceUnit, asc ['2','1','4','7','4','8','3','6','4','8']⟩]⟩] = .err "value out of range" := by decide +kernel

/-- Rows: hash, index, amount. -/
example : parseRows32 [asc ['a','b',' ',' ','1',' ',' ','4','2',' ','l']] = .ok [⟨[0xab], 1, 42⟩] := by decide +kernel

end Cardano.Props
