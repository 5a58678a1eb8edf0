import Verif.Tx.Builder
/-!
# The fee set by `AddChangeIfNeeded` against the size of the transaction that is finally built
-/
set_option autoImplicit false

namespace Cardano.TxBuilder
open Cbor TxSpec Transaction Addr

/-- Size of the witness set with `n` standard witnesses. -/
def wsize (n : Nat) : Nat := if n = 0 then 1 else 2 + uintSize n + 101 * n

theorem foldl_sign (ks : List Bytes) : ∀ b : Builder, ks.foldl Sign b = { b with xprvs := b.xprvs ++ ks } := by
  induction ks with
  | nil => intro b; simp
  | cons k ks ih => intro b; rw [List.foldl_cons, ih]; simp [Sign]

theorem All2.length_eq {α β : Type} {R : α → β → Prop} {l : List α} {m : List β} (h : All2 R l m) : l.length = m.length := by
  induction h with
  | nil => rfl
  | cons _ _ ih => simp [ih]

theorem All2.mem_left {α β : Type} {R : α → β → Prop} {l : List α} {m : List β} (h : All2 R l m) : ∀ x ∈ l, ∃ y ∈ m, R x y := by
  induction h with
  | nil => intro x hx; cases hx
  | cons h _ ih =>
    intro x hx
    rcases List.mem_cons.1 hx with rfl | hx
    · exact ⟨_, by simp, h⟩
    · obtain ⟨y, hy, hr⟩ := ih x hx
      exact ⟨y, by simp [hy], hr⟩

/-- The size of the built transaction against the size of the transaction `MinFee` measured. -/
theorem built_size_first (C : Crypto) (hH : ∀ m, (C.blake256 m).length = 32)
    (hpk : ∀ k pk, C.publicKey k = .ok pk → pk.length = 32) (hsg : ∀ k msg s, C.sign k msg = .ok s → s.length = 64)
    (b : Builder) (addr : Address) (keys : List Bytes) (n : Nat) (ab : Bytes)
    (hd : ∀ k, ∃ m, marshalMetadata b.metadata k = .ok m ∧ m.length = n) (hx : b.metadata = none → b.body.auxHash = [])
    (hw : StdWit (witAt b b.wit)) (hlw : (witAt b b.wit).length < 2 ^ 63) (hlk : (b.xprvs ++ keys).length < 2 ^ 63)
    (hlo : b.body.outputs.length + 1 < 2 ^ 64)
    (hab : marshalAddress addr = .ok ab) (hne : totalIn b.body.inputs ≠ totalOut b.body.outputs)
    (h : Handle) (b' : Builder) (e : Build C (keys.foldl Sign (AddChangeIfNeeded C b addr)) = (.ok h, b'))
    (k : Nat) (bs : Bytes) (eb : bytes C (view b' h) k = .ok bs) :
    ∃ (len1 len2 : Nat) (fee1 : UInt64),
      fee1 = orZero (fee C ⟨b.protocol.txFeePerByte, b.protocol.txFeeFixed⟩ (feeTx C b b.clock) (b.clock + 1)) ∧
      fee1 = b.protocol.txFeeFixed + b.protocol.txFeePerByte * UInt64.ofNat len1 ∧
      (MinFee C b).1 = b.protocol.txFeeFixed + b.protocol.txFeePerByte * UInt64.ofNat len2 ∧
      len1 + uintSize fee1.toNat = len2 + uintSize b.body.fee.toNat ∧
      (view b' h).body.fee = (MinFee C b).1 ∧
      len2 + ab.length + uintSize (totalIn b.body.inputs - totalOut b.body.outputs - (MinFee C b).1).toNat +
          wsize (b.xprvs ++ keys).length + uintSize (MinFee C b).1.toNat =
        bs.length + 59 + uintSize (totalIn b.body.inputs - totalOut b.body.outputs - 200000).toNat +
          wsize (feeWits b).length + uintSize fee1.toNat := by
  rw [foldl_sign] at e
  generalize hb1 : { (AddChangeIfNeeded C b addr) with xprvs := (AddChangeIfNeeded C b addr).xprvs ++ keys } = b1 at e
  have hm1 : b1.metadata = b.metadata := by rw [← hb1]; rfl
  have hbody1 : b1.body = { b.body with
        fee := (MinFee C b).1
        outputs := b.body.outputs ++ [⟨addr, totalIn b.body.inputs - totalOut b.body.outputs - (MinFee C b).1⟩] } := by
    rw [← hb1]; rfl
  have hk1 : b1.xprvs = b.xprvs ++ keys := by rw [← hb1]; rfl
  obtain ⟨body, bb, ws, h1, h2, h3, h4, h5⟩ := build_ok C b1 b' h e
  have hv := view_build b1 b' h body ws h4 h5
  obtain ⟨m, hm, _⟩ := hd b1.clock
  obtain ⟨m', hm', _⟩ := hd k
  obtain ⟨m'', hm'', hn''⟩ := hd (k + 1)
  have hc : calcAux C (tx b1) b1.clock = .ok { b1.body with auxHash := auxOf C b.metadata b1.body.auxHash m } := by
    have := calcAux_of C (tx b1) m b1.clock (by show marshalMetadata b1.metadata _ = _; rw [hm1]; exact hm)
    rw [this]
    show Res.ok { b1.body with auxHash := auxOf C b1.metadata b1.body.auxHash m } = _
    rw [hm1]
  rw [hc] at h1
  injection h1 with h1
  -- the bytes
  rw [hv, hm1] at eb
  have hc2 : calcAux C ⟨body, ws, b1.valid, b.metadata⟩ k =
      .ok { body with auxHash := auxOf C b.metadata body.auxHash m' } := calcAux_of C _ m' k hm'
  obtain ⟨body', e0, eb⟩ := bind_ok eb
  rw [hc2] at e0
  injection e0 with e0
  -- outputs
  have hbase : auxOf C b.metadata body.auxHash m' = auxOf C b.metadata [] m' := by
    rw [← h1, hbody1]
    simp only [auxOf_idem]
    cases hmd : b.metadata with
    | none => exact hx hmd
    | some d => rfl
  have hxx : body'.auxHash = auxOf C b.metadata [] m' := by rw [← e0]; exact hbase
  have has := auxSize_of C hH b.metadata m'
  obtain ⟨outs', ho', _⟩ := bind_ok h2
  have hsz := tx_size ⟨body', ws, b1.valid, b.metadata⟩ (k + 1) outs' m'' (by rw [← e0]; exact ho') hm''
    (by rw [show (Tx.mk body' ws b1.valid b.metadata).body.auxHash = _ from hxx]; exact has.1)
  obtain ⟨bs', hbs', hlen⟩ := hsz
  have : bs = bs' := by rw [hbs'] at eb; injection eb with eb; exact eb.symm
  subst this
  have hbo : body.outputs = b.body.outputs ++ [⟨addr, totalIn b.body.inputs - totalOut b.body.outputs - (MinFee C b).1⟩] := by
    rw [← h1, hbody1]
  rw [hbo] at ho'
  obtain ⟨as, a, hoas, ha, houts⟩ := (collect_append _ _ _).1 ho'
  obtain ⟨ab', hab', hal⟩ := output_length _ _ _ ha
  rw [hab] at hab'
  injection hab' with hab'
  subst hab'
  -- the fee transaction
  have hfo : feeOuts b = b.body.outputs ++ [⟨innerAddr, totalIn b.body.inputs - totalOut b.body.outputs - 200000⟩] := by
    unfold feeOuts; rw [if_pos hne]
  obtain ⟨ib, hib, hibl⟩ := innerAddr_bytes
  have hd2 : marshalOutput ⟨innerAddr, totalIn b.body.inputs - totalOut b.body.outputs - 200000⟩ =
      .ok (encArray [ib, encUint (totalIn b.body.inputs - totalOut b.body.outputs - 200000)]) := by
    unfold marshalOutput; simp only [hib, Res.ok_bind]; rfl
  obtain ⟨ib', hib', hdl⟩ := output_length _ _ _ hd2
  rw [hib] at hib'
  injection hib' with hib'
  subst hib'
  have hcoll : collect ((feeOuts b).map marshalOutput) =
      .ok (as ++ [encArray [ib, encUint (totalIn b.body.inputs - totalOut b.body.outputs - 200000)]]) := by
    rw [hfo]; exact (collect_append _ _ _).2 ⟨as, _, hoas, hd2, rfl⟩
  obtain ⟨len1, len2, fee1, f0, f1, f2, base, g0, g1, g2⟩ := minFee_of_first C hH b n _ hd hcoll
  have hasl : as.length = b.body.outputs.length := (collect_ok _ _ hoas).1
  have e1 := encArray_snoc_length as a (by omega)
  have e2 := encArray_snoc_length as (encArray [ib, encUint (totalIn b.body.inputs - totalOut b.body.outputs - 200000)]) (by omega)
  -- witnesses
  have hall := witnessesOf_ok C _ _ _ h3
  rw [hk1] at hall
  have hwl : ws.length = (b.xprvs ++ keys).length := All2.length_eq hall
  have hstd : StdWit ws := by
    intro w hw
    obtain ⟨y, _, h1, h2⟩ := All2.mem_left hall w hw
    exact ⟨hpk _ _ h1, hsg _ _ _ h2⟩
  have w1 := witness_length ws hstd (by omega)
  have hfw : StdWit (feeWits b) := by
    unfold feeWits
    split
    · intro w hw; rw [List.mem_singleton.1 hw]; exact ⟨by decide, by decide⟩
    · exact hw
  have w2 := witness_length (feeWits b) hfw (by unfold feeWits; split; simp; exact hlw)
  rw [houts, e1] at hlen
  rw [e2] at g0
  have w1' : (marshalWitness ws).length = wsize (b.xprvs ++ keys).length := by rw [w1, ← hwl]; rfl
  have w2' : (marshalWitness (feeWits b)).length = wsize (feeWits b).length := w2
  have hbi : body.inputs = b.body.inputs := by rw [← h1, hbody1]
  have hbt : body.ttl = b.body.ttl := by rw [← h1, hbody1]
  have hbf : body.fee = (MinFee C b).1 := by rw [← h1, hbody1]
  refine ⟨len1, len2, fee1, f0, f1, f2, by omega, by rw [hv]; exact hbf, ?_⟩
  have hbi' : body'.inputs = b.body.inputs := by rw [← e0]; exact hbi
  have hbt' : body'.ttl = b.body.ttl := by rw [← e0]; exact hbt
  have hbf' : body'.fee = (MinFee C b).1 := by rw [← e0]; exact hbf
  simp only [hbi', hbt', hbf', hxx, has.2] at hlen
  rw [w1'] at hlen
  rw [w2'] at g0
  omega

/-- The same without naming the fee of the first pass. -/
theorem built_size (C : Crypto) (hH : ∀ m, (C.blake256 m).length = 32)
    (hpk : ∀ k pk, C.publicKey k = .ok pk → pk.length = 32) (hsg : ∀ k msg s, C.sign k msg = .ok s → s.length = 64)
    (b : Builder) (addr : Address) (keys : List Bytes) (n : Nat) (ab : Bytes)
    (hd : ∀ k, ∃ m, marshalMetadata b.metadata k = .ok m ∧ m.length = n) (hx : b.metadata = none → b.body.auxHash = [])
    (hw : StdWit (witAt b b.wit)) (hlw : (witAt b b.wit).length < 2 ^ 63) (hlk : (b.xprvs ++ keys).length < 2 ^ 63)
    (hlo : b.body.outputs.length + 1 < 2 ^ 64)
    (hab : marshalAddress addr = .ok ab) (hne : totalIn b.body.inputs ≠ totalOut b.body.outputs)
    (h : Handle) (b' : Builder) (e : Build C (keys.foldl Sign (AddChangeIfNeeded C b addr)) = (.ok h, b'))
    (k : Nat) (bs : Bytes) (eb : bytes C (view b' h) k = .ok bs) :
    ∃ (len1 len2 : Nat) (fee1 : UInt64),
      fee1 = b.protocol.txFeeFixed + b.protocol.txFeePerByte * UInt64.ofNat len1 ∧
      (MinFee C b).1 = b.protocol.txFeeFixed + b.protocol.txFeePerByte * UInt64.ofNat len2 ∧
      len1 + uintSize fee1.toNat = len2 + uintSize b.body.fee.toNat ∧
      (view b' h).body.fee = (MinFee C b).1 ∧
      len2 + ab.length + uintSize (totalIn b.body.inputs - totalOut b.body.outputs - (MinFee C b).1).toNat +
          wsize (b.xprvs ++ keys).length + uintSize (MinFee C b).1.toNat =
        bs.length + 59 + uintSize (totalIn b.body.inputs - totalOut b.body.outputs - 200000).toNat +
          wsize (feeWits b).length + uintSize fee1.toNat := by
  obtain ⟨len1, len2, fee1, -, r⟩ := built_size_first C hH hpk hsg b addr keys n ab hd hx hw hlw hlk hlo hab hne h b' e k bs eb
  exact ⟨len1, len2, fee1, r⟩

end Cardano.TxBuilder
