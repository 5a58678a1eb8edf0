import Verif.Tx.Size
/-!
# The builder: lemmas on `MinFee`, `AddChangeIfNeeded`, `Build`
-/
set_option autoImplicit false

namespace Cardano.TxBuilder
open Cbor TxSpec Transaction Addr

/-! ### Sums -/

theorem foldl_sum (l : List UInt64) : ∀ a : UInt64, (l.foldl (· + ·) a).toNat = (a.toNat + (l.map UInt64.toNat).sum) % 2 ^ 64 := by
  induction l with
  | nil => intro a; simp
  | cons x l ih =>
    intro a
    simp only [List.foldl_cons, List.map_cons, List.sum_cons]
    rw [ih, UInt64.toNat_add]
    omega

theorem totalIn_toNat (l : List TxInput) : (totalIn l).toNat = sumIn l % 2 ^ 64 := by
  unfold totalIn sumIn
  have := foldl_sum (l.map (·.amount)) 0
  rw [List.foldl_map, List.map_map] at this
  rw [this]; simp; rfl

theorem totalOut_toNat (l : List TxOutput) : (totalOut l).toNat = sumOut l % 2 ^ 64 := by
  unfold totalOut sumOut
  have := foldl_sum (l.map (·.amount)) 0
  rw [List.foldl_map, List.map_map] at this
  rw [this]; simp; rfl

theorem totalOut_snoc (l : List TxOutput) (o : TxOutput) : totalOut (l ++ [o]) = totalOut l + o.amount := by
  simp [totalOut]

theorem sumOut_snoc (l : List TxOutput) (o : TxOutput) : sumOut (l ++ [o]) = sumOut l + o.amount.toNat := by
  simp [sumOut]

/-! ### The placeholder change address -/

theorem innerAddr_bytes : ∃ ab, marshalAddress innerAddr = .ok ab ∧ ab.length = 59 := by
  refine ⟨match marshalAddress innerAddr with | .ok b => b | _ => [], ?_, ?_⟩ <;> decide +kernel

/-! ### `AddChangeIfNeeded` -/

theorem MinFee_body (C : Crypto) (b : Builder) : (MinFee C b).2.body = b.body := rfl

theorem addChange_eq (C : Crypto) (b : Builder) (addr : Address) :
    AddChangeIfNeeded C b addr = { (MinFee C b).2 with
      body := { b.body with
        fee := (MinFee C b).1
        outputs := b.body.outputs ++ [⟨addr, totalIn b.body.inputs - totalOut b.body.outputs - (MinFee C b).1⟩] } } := rfl

/-! ### Deterministic metadata -/

/-- The auxiliary data hash written for metadata that encodes to `m`. -/
def auxOf (C : Crypto) (md : Option Metadata) (old m : Bytes) : Bytes :=
  match md with
  | none => old
  | some _ => C.blake256 m

theorem calcAux_of (C : Crypto) (t : Tx) (m : Bytes) (k : Nat) (h : marshalMetadata t.metadata k = .ok m) :
    calcAux C t k = .ok { t.body with auxHash := auxOf C t.metadata t.body.auxHash m } := by
  unfold calcAux
  cases hm : t.metadata with
  | none => rfl
  | some md =>
    rw [hm] at h
    have h' : md.enc k = .ok m := h
    simp only [h', auxOf]

theorem afterAux_of (C : Crypto) (t : Tx) (m : Bytes) (k : Nat) (h : marshalMetadata t.metadata k = .ok m) :
    afterAux C t k = { t with body := { t.body with auxHash := auxOf C t.metadata t.body.auxHash m } } := by
  unfold afterAux; rw [calcAux_of C t m k h]

theorem metadata_det (md : Option Metadata) (hd : Deterministic md) (k : Nat) (m : Bytes) (h : marshalMetadata md k = .ok m) (k' : Nat) :
    marshalMetadata md k' = .ok m := by
  cases md with
  | none => exact h
  | some d => rw [← h]; exact hd d rfl k' k

/-- Size of a transaction from its parts. -/
theorem tx_size (t : Tx) (k : Nat) (outs : List Bytes) (m : Bytes) (ho : collect (t.body.outputs.map marshalOutput) = .ok outs)
    (hm : marshalMetadata t.metadata k = .ok m) (hx : t.body.auxHash = [] ∨ t.body.auxHash.length = 32) :
    ∃ bs, marshalTx t k = .ok bs ∧ bs.length = 6 + (encArray (t.body.inputs.map marshalInput)).length + (encArray outs).length +
      uintSize t.body.fee.toNat + (if t.body.ttl = 0 then 0 else 1 + uintSize t.body.ttl.toNat) + (if t.body.auxHash = [] then 0 else 35) +
      (marshalWitness t.witness).length + m.length := by
  obtain ⟨body, hb⟩ : ∃ b, marshalBody t.body = .ok b := by unfold marshalBody; rw [ho]; exact ⟨_, rfl⟩
  obtain ⟨bs, hbs⟩ : ∃ bs, marshalTx t k = .ok bs := by unfold marshalTx; rw [hb, hm]; exact ⟨_, rfl⟩
  refine ⟨bs, hbs, ?_⟩
  obtain ⟨b', m', h1, h2, h3⟩ := tx_length t k bs hbs
  rw [hb] at h1; injection h1 with h1; subst h1
  rw [hm] at h2; injection h2 with h2; subst h2
  obtain ⟨outs', h4, h5⟩ := body_length _ _ hb hx
  rw [ho] at h4; injection h4 with h4; subst h4
  rw [h3, h5]; omega

/-! ### The fee transaction of `MinFee` -/

/-- The witness list `MinFee` works with. -/
def feeWits (b : Builder) : List VKeyWitness := if (witAt b b.wit).length = 0 then [dummyWitness] else witAt b b.wit

/-- The outputs `MinFee` works with. -/
def feeOuts (b : Builder) : List TxOutput :=
  if totalIn b.body.inputs ≠ totalOut b.body.outputs then
    b.body.outputs ++ [⟨innerAddr, totalIn b.body.inputs - totalOut b.body.outputs - 200000⟩]
  else b.body.outputs

theorem feeTx_of (C : Crypto) (b : Builder) (m : Bytes) (k : Nat) (h : marshalMetadata b.metadata k = .ok m) :
    feeTx C b k = ⟨⟨b.body.inputs, feeOuts b, b.body.fee, b.body.ttl, auxOf C b.metadata [] m⟩, feeWits b, true, b.metadata⟩ := by
  unfold feeTx
  dsimp only
  rw [afterAux_of C ⟨⟨b.body.inputs, b.body.outputs, b.body.fee, b.body.ttl, []⟩, witAt b b.wit, true, b.metadata⟩ m k h]
  unfold feeWits feeOuts
  by_cases c1 : (witAt b b.wit).length = 0 <;> by_cases c2 : totalIn b.body.inputs ≠ totalOut b.body.outputs
  · have : witAt b b.wit = [] := List.length_eq_zero_iff.1 c1
    simp only [c2, this, if_pos, List.length_nil, List.nil_append, ne_eq, not_false_eq_true]
  · have : witAt b b.wit = [] := List.length_eq_zero_iff.1 c1
    simp only [c2, this, List.length_nil, List.nil_append, if_false, if_true]
  · simp only [c1, c2, if_false, ne_eq, not_false_eq_true, if_true]
  · simp only [c1, c2, if_false]

theorem fee_of (C : Crypto) (l : LinearFee) (t : Tx) (m bs : Bytes) (k : Nat) (h : marshalMetadata t.metadata k = .ok m)
    (hbs : marshalTx { t with body := { t.body with auxHash := auxOf C t.metadata t.body.auxHash m } } (k + 1) = .ok bs) :
    fee C l t k = .ok (l.txFeeFixed + l.txFeePerByte * UInt64.ofNat bs.length) := by
  unfold fee
  rw [calcAux_of C t m k h]
  simp only [Res.ok_bind]
  rw [hbs]; rfl

theorem auxOf_idem (C : Crypto) (md : Option Metadata) (a m m' : Bytes) : auxOf C md (auxOf C md a m) m' = auxOf C md a m' := by
  cases md <;> rfl

/-- Size of the entry for the metadata hash in the body. -/
def auxSize (md : Option Metadata) : Nat := if md.isNone then 0 else 35

theorem auxSize_of (C : Crypto) (hH : ∀ m, (C.blake256 m).length = 32) (md : Option Metadata) (m : Bytes) :
    (auxOf C md [] m = [] ∨ (auxOf C md [] m).length = 32) ∧ (if auxOf C md [] m = [] then 0 else 35) = auxSize md := by
  cases md with
  | none => exact ⟨Or.inl rfl, rfl⟩
  | some d =>
    refine ⟨Or.inr (hH m), ?_⟩
    have : auxOf C (some d) [] m ≠ [] := fun h => by
      have := congrArg List.length h
      rw [show (auxOf C (some d) [] m).length = 32 from hH m] at this
      cases this
    rw [if_neg this]; rfl

/-- `MinFee` when everything serialises, the metadata always to the same number of bytes: the linear formula on the size of the
second-pass transaction. -/
theorem minFee_of_first (C : Crypto) (hH : ∀ m, (C.blake256 m).length = 32) (b : Builder) (n : Nat) (outs : List Bytes)
    (h : ∀ k, ∃ m, marshalMetadata b.metadata k = .ok m ∧ m.length = n) (ho : collect ((feeOuts b).map marshalOutput) = .ok outs) :
    ∃ (len1 len2 : Nat) (fee1 : UInt64),
      fee1 = orZero (fee C ⟨b.protocol.txFeePerByte, b.protocol.txFeeFixed⟩ (feeTx C b b.clock) (b.clock + 1)) ∧
      fee1 = b.protocol.txFeeFixed + b.protocol.txFeePerByte * UInt64.ofNat len1 ∧
      (MinFee C b).1 = b.protocol.txFeeFixed + b.protocol.txFeePerByte * UInt64.ofNat len2 ∧
      (∃ base, base = 6 + (encArray (b.body.inputs.map marshalInput)).length + (encArray outs).length +
        (if b.body.ttl = 0 then 0 else 1 + uintSize b.body.ttl.toNat) + auxSize b.metadata +
        (marshalWitness (feeWits b)).length + n ∧
        len1 = base + uintSize b.body.fee.toNat ∧ len2 = base + uintSize fee1.toNat) := by
  let l : LinearFee := ⟨b.protocol.txFeePerByte, b.protocol.txFeeFixed⟩
  let T : UInt64 → Bytes → Tx :=
    fun f m => ⟨⟨b.body.inputs, feeOuts b, f, b.body.ttl, auxOf C b.metadata [] m⟩, feeWits b, true, b.metadata⟩
  obtain ⟨m0, hm0, n0⟩ := h b.clock
  obtain ⟨m1, hm1, n1⟩ := h (b.clock + 1)
  obtain ⟨m2, hm2, n2⟩ := h (b.clock + 1 + 1)
  obtain ⟨m3, hm3, n3⟩ := h (b.clock + 1 + 2)
  obtain ⟨m4, hm4, n4⟩ := h (b.clock + 1 + 2 + 1)
  have a1 := auxSize_of C hH b.metadata m1
  have a3 := auxSize_of C hH b.metadata m3
  obtain ⟨bs1, h1, l1⟩ := tx_size (T b.body.fee m1) (b.clock + 1 + 1) outs m2 ho hm2 a1.1
  have f1 := fee_of C l (T b.body.fee m0) m1 bs1 (b.clock + 1) hm1 (by simp only [T, auxOf_idem]; exact h1)
  obtain ⟨bs2, h2, l2⟩ := tx_size (T (l.txFeeFixed + l.txFeePerByte * UInt64.ofNat bs1.length) m3) (b.clock + 1 + 2 + 1) outs m4 ho
    hm4 a3.1
  have f2 := fee_of C l (T (l.txFeeFixed + l.txFeePerByte * UInt64.ofNat bs1.length) m1) m3 bs2 (b.clock + 1 + 2) hm3
    (by simp only [T, auxOf_idem]; exact h2)
  have e : (MinFee C b).1 = l.txFeeFixed + l.txFeePerByte * UInt64.ofNat bs2.length := by
    show feePasses C l (feeTx C b b.clock) (b.clock + 1) = _
    rw [feeTx_of C b m0 _ hm0]
    unfold feePasses
    have f1' : fee C l (T b.body.fee m0) (b.clock + 1) = _ := f1
    simp only [T] at f1' f2
    rw [f1', afterAux_of C _ m1 _ hm1]
    simp only [orZero, auxOf_idem]
    rw [f2]
  have e1 : l.txFeeFixed + l.txFeePerByte * UInt64.ofNat bs1.length = orZero (fee C l (feeTx C b b.clock) (b.clock + 1)) := by
    rw [feeTx_of C b m0 _ hm0]
    have f1' : fee C l (T b.body.fee m0) (b.clock + 1) = _ := f1
    simp only [T] at f1'
    rw [f1']; rfl
  refine ⟨bs1.length, bs2.length, _, e1, rfl, e, _, rfl, ?_, ?_⟩
  · rw [l1]; simp only [T, a1.2]; omega
  · rw [l2]; simp only [T, l, a3.2]; omega

/-- The same without naming the fee of the first pass. -/
theorem minFee_of (C : Crypto) (hH : ∀ m, (C.blake256 m).length = 32) (b : Builder) (n : Nat) (outs : List Bytes)
    (h : ∀ k, ∃ m, marshalMetadata b.metadata k = .ok m ∧ m.length = n) (ho : collect ((feeOuts b).map marshalOutput) = .ok outs) :
    ∃ (len1 len2 : Nat) (fee1 : UInt64),
      fee1 = b.protocol.txFeeFixed + b.protocol.txFeePerByte * UInt64.ofNat len1 ∧
      (MinFee C b).1 = b.protocol.txFeeFixed + b.protocol.txFeePerByte * UInt64.ofNat len2 ∧
      (∃ base, base = 6 + (encArray (b.body.inputs.map marshalInput)).length + (encArray outs).length +
        (if b.body.ttl = 0 then 0 else 1 + uintSize b.body.ttl.toNat) + auxSize b.metadata +
        (marshalWitness (feeWits b)).length + n ∧
        len1 = base + uintSize b.body.fee.toNat ∧ len2 = base + uintSize fee1.toNat) := by
  obtain ⟨len1, len2, fee1, -, r⟩ := minFee_of_first C hH b n outs h ho
  exact ⟨len1, len2, fee1, r⟩

/-! ### `Build` -/

theorem witnessesOf_ok (C : Crypto) (h : Bytes) (ks : List Bytes) : ∀ ws, witnessesOf C h ks = .ok ws →
    All2 (fun (w : VKeyWitness) k => C.publicKey k = .ok w.vkey ∧ C.sign k h = .ok w.signature) ws ks := by
  induction ks with
  | nil => intro ws e; have : [] = ws := by injection e
           subst this; exact .nil
  | cons k ks ih =>
    intro ws e
    obtain ⟨w, hw, e⟩ := bind_ok e
    obtain ⟨ws', hws, e⟩ := bind_ok e
    injection e with e
    subst e
    obtain ⟨pk, h1, hw⟩ := bind_ok hw
    obtain ⟨sg, h2, hw⟩ := bind_ok hw
    injection hw with hw
    subst hw
    exact .cons ⟨h1, h2⟩ (ih _ hws)

/-- What a successful `Build` does. -/
theorem build_ok (C : Crypto) (b b' : Builder) (h : Handle) (e : Build C b = (.ok h, b')) :
    ∃ body bb ws, calcAux C (tx b) b.clock = .ok body ∧ marshalBody body = .ok bb ∧
      witnessesOf C (C.blake256 bb) b.xprvs = .ok ws ∧
      h = ⟨b.wits.length, b.valid, b.metadata⟩ ∧
      b' = { b with body := body, clock := b.clock + 1, wits := b.wits ++ [ws], wit := b.wits.length } := by
  unfold Build at e
  cases hh : Transaction.hash C (tx b) b.clock with
  | err m => rw [hh] at e; cases e
  | panic => rw [hh] at e; cases e
  | ok hs =>
    rw [hh] at e
    simp only at e
    obtain ⟨body, hc, hh⟩ := bind_ok hh
    obtain ⟨bb, hb, hh⟩ := bind_ok hh
    injection hh with hh
    cases hw : witnessesOf C hs b.xprvs with
    | err m => rw [hw] at e; cases e
    | panic => rw [hw] at e; cases e
    | ok ws =>
      rw [hw] at e
      simp only [Prod.mk.injEq, Res.ok.injEq] at e
      have ha : (afterAux C (tx b) b.clock).body = body := by unfold afterAux; rw [hc]
      refine ⟨body, bb, ws, hc, hb, by rw [hh]; exact hw, ?_, ?_⟩
      · exact e.1.symm
      · rw [← e.2, ha]

theorem view_build (b b' : Builder) (h : Handle) (body : TxBody) (ws : List VKeyWitness)
    (hh : h = ⟨b.wits.length, b.valid, b.metadata⟩)
    (hb : b' = { b with body := body, clock := b.clock + 1, wits := b.wits ++ [ws], wit := b.wits.length }) :
    view b' h = ⟨body, ws, b.valid, b.metadata⟩ := by
  subst hh hb
  simp [view, witAt]

end Cardano.TxBuilder
