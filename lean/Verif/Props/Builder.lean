import Verif.Tx.Ops
import Verif.Tx.Fee
import Verif.Tx.Golden
import Verif.Tx.Alias
import Verif.Props.Tx
/-!
# Properties C20-C25, C28, C29, C54: the transaction builder
-/
set_option autoImplicit false

namespace Cardano.Props
open Cbor TxSpec Transaction TxBuilder Addr Cardano.Spec

/-! ### C21, C22: value conservation -/

/-- **C21 (64-bit).** After `AddChangeIfNeeded`, total input = total output + fee in 64-bit arithmetic, always. -/
theorem C21_conservation_mod64 (C : Crypto) (b : Builder) (addr : Address) :
    let b' := AddChangeIfNeeded C b addr
    sumIn b'.body.inputs % 2 ^ 64 = (sumOut b'.body.outputs + b'.body.fee.toNat) % 2 ^ 64 := by
  rw [addChange_eq]
  simp only [sumOut_snoc]
  have hi := totalIn_toNat b.body.inputs
  have ho := totalOut_toNat b.body.outputs
  have hf := UInt64.toNat_lt (MinFee C b).1
  rw [UInt64.toNat_sub, UInt64.toNat_sub, hi, ho]
  omega

/-- **C21 (exact).** When the inputs cover outputs plus fee and fit 64 bits, the sums agree as integers, and the last output is
the change. -/
theorem C21_value_conserved (C : Crypto) (b : Builder) (addr : Address) (hI : sumIn b.body.inputs < 2 ^ 64)
    (hcover : sumOut b.body.outputs + (MinFee C b).1.toNat ≤ sumIn b.body.inputs) :
    let b' := AddChangeIfNeeded C b addr
    sumIn b'.body.inputs = sumOut b'.body.outputs + b'.body.fee.toNat ∧
    b'.body.inputs = b.body.inputs ∧
    ∃ change, b'.body.outputs = b.body.outputs ++ [⟨addr, change⟩] ∧
      change.toNat = sumIn b.body.inputs - sumOut b.body.outputs - b'.body.fee.toNat := by
  rw [addChange_eq]
  simp only [sumOut_snoc]
  have hi := totalIn_toNat b.body.inputs
  have ho := totalOut_toNat b.body.outputs
  have hf := UInt64.toNat_lt (MinFee C b).1
  have key : (totalIn b.body.inputs - totalOut b.body.outputs - (MinFee C b).1).toNat =
      sumIn b.body.inputs - sumOut b.body.outputs - (MinFee C b).1.toNat := by
    rw [UInt64.toNat_sub, UInt64.toNat_sub, hi, ho, Nat.mod_eq_of_lt hI, Nat.mod_eq_of_lt (show sumOut b.body.outputs < 2 ^ 64 by omega)]
    omega
  refine ⟨by rw [key]; omega, trivial, _, rfl, key⟩

/-- **C22 (partial).** With sufficient inputs the change output is at most the total input. Missing: with insufficient inputs
it is not, see `C22_change_from_nothing`. -/
theorem C22_change_bounded_partial (C : Crypto) (b : Builder) (addr : Address) (hI : sumIn b.body.inputs < 2 ^ 64)
    (hcover : sumOut b.body.outputs + (MinFee C b).1.toNat ≤ sumIn b.body.inputs) :
    ∀ o ∈ (AddChangeIfNeeded C b addr).body.outputs, o ∉ b.body.outputs → o.amount.toNat ≤ sumIn b.body.inputs := by
  intro o ho hn
  obtain ⟨_, _, change, h1, h2⟩ := C21_value_conserved C b addr hI hcover
  rw [h1] at ho
  rcases List.mem_append.1 ho with ho | ho
  · exact absurd ho hn
  · rw [List.mem_singleton.1 ho]; simp only; omega

/-- **C22 is false**: whenever the inputs do not cover outputs plus fee, `AddChangeIfNeeded` adds a change output that is larger
than everything that was put in - and reports nothing. -/
theorem C22_change_from_nothing (C : Crypto) (b : Builder) (addr : Address)
    (hshort : sumIn b.body.inputs < sumOut b.body.outputs + (MinFee C b).1.toNat)
    (hfit : sumOut b.body.outputs + (MinFee C b).1.toNat < 2 ^ 64) :
    ∃ change, (AddChangeIfNeeded C b addr).body.outputs = b.body.outputs ++ [⟨addr, change⟩] ∧
      sumIn b.body.inputs < change.toNat := by
  rw [addChange_eq]
  refine ⟨_, rfl, ?_⟩
  have hi := totalIn_toNat b.body.inputs
  have ho := totalOut_toNat b.body.outputs
  have hf := UInt64.toNat_lt (MinFee C b).1
  rw [UInt64.toNat_sub, UInt64.toNat_sub, hi, ho, Nat.mod_eq_of_lt (show sumIn b.body.inputs < 2 ^ 64 by omega),
    Nat.mod_eq_of_lt (show sumOut b.body.outputs < 2 ^ 64 by omega)]
  omega

/-- Despite its name, `AddChangeIfNeeded` adds an output even when the change is zero. -/
theorem C22_zero_change_output (C : Crypto) (b : Builder) (addr : Address) (hI : sumIn b.body.inputs < 2 ^ 64)
    (hexact : sumOut b.body.outputs + (MinFee C b).1.toNat = sumIn b.body.inputs) :
    (AddChangeIfNeeded C b addr).body.outputs = b.body.outputs ++ [⟨addr, 0⟩] := by
  obtain ⟨_, _, change, h1, h2⟩ := C21_value_conserved C b addr hI (by omega)
  have : (AddChangeIfNeeded C b addr).body.fee = (MinFee C b).1 := rfl
  rw [this] at h2
  have : change = 0 := UInt64.toNat_inj.1 (by rw [h2]; simp; omega)
  rw [h1, this]

/-! ### C23: side effects of `MinFee` -/

/-- **C23 (partial).** `MinFee` leaves inputs, outputs, fee, ttl, auxiliary data hash, flag, metadata, keys and parameters alone, and
also the witnesses if there are any. Missing: an empty witness list is changed, see `C23_minfee_adds_witness`. -/
theorem C23_minfee_pure_partial (C : Crypto) (b : Builder) :
    let b' := (MinFee C b).2
    b'.body = b.body ∧ b'.valid = b.valid ∧ b'.metadata = b.metadata ∧ b'.xprvs = b.xprvs ∧ b'.protocol = b.protocol ∧
    ((tx b).witness ≠ [] → (tx b').witness = (tx b).witness) := by
  refine ⟨rfl, rfl, rfl, rfl, rfl, fun hne => ?_⟩
  have : ¬ (witAt b b.wit).length = 0 := fun h => hne (List.length_eq_zero_iff.1 h)
  unfold MinFee TxBuilder.tx witAt
  simp only
  unfold witAt at this
  rw [if_neg this]

/-- **C23 is false**: on a transaction without witnesses - every new builder - `MinFee` leaves behind a witness made of zeros, which
is then serialised with the transaction. -/
theorem C23_minfee_adds_witness (C : Crypto) (b : Builder) (hp : b.wit < b.wits.length) (he : (tx b).witness = []) :
    (tx (MinFee C b).2).witness = [⟨List.replicate 32 0, List.replicate 64 0⟩] := by
  have : witAt b b.wit = [] := he
  unfold MinFee TxBuilder.tx
  simp only [this, List.length_nil, if_true]
  unfold witAt
  simp [List.getD_eq_getElem?_getD, hp, dummyWitness]

/-- The pointer hypothesis and the emptiness hypothesis hold for a new builder. -/
theorem newBuilder_fresh (p : Protocol) (ks : List Bytes) :
    (NewTxBuilder p ks).wit < (NewTxBuilder p ks).wits.length ∧ (tx (NewTxBuilder p ks)).witness = [] :=
  ⟨Nat.zero_lt_one, rfl⟩

/-! ### C24, C25: `Build` -/

/-- **C24.** When `Build` succeeds, the returned transaction has the inputs, outputs, fee and ttl of the builder, and its witnesses are,
for each signing key in order, exactly one pair of public key and signature on the blake2b-256 hash of the body bytes of
that very transaction; earlier witnesses are gone. -/
theorem C24_build_signs_body (C : Crypto) (b b' : Builder) (h : Handle) (e : Build C b = (.ok h, b')) :
    let t := view b' h
    (t.body.inputs = b.body.inputs ∧ t.body.outputs = b.body.outputs ∧ t.body.fee = b.body.fee ∧ t.body.ttl = b.body.ttl) ∧
    ∃ bodyBytes, marshalBody t.body = .ok bodyBytes ∧
      All2 (fun (w : VKeyWitness) k => C.publicKey k = .ok w.vkey ∧ C.sign k (C.blake256 bodyBytes) = .ok w.signature) t.witness b.xprvs := by
  obtain ⟨body, bb, ws, h1, h2, h3, h4, h5⟩ := build_ok C b b' h e
  have hv := view_build b b' h body ws h4 h5
  simp only [hv]
  exact ⟨calcAux_outputs C (tx b) b.clock body h1, bb, h2, witnessesOf_ok C _ _ _ h3⟩

/-- With deterministic metadata the signed hash is the transaction's `Hash()`, whenever it is asked for. -/
theorem C24_signed_hash_is_txid (C : Crypto) (b b' : Builder) (h : Handle) (e : Build C b = (.ok h, b')) (hd : Deterministic b.metadata) (k : Nat) :
    ∃ hs, Transaction.hash C (view b' h) k = .ok hs ∧
      All2 (fun (w : VKeyWitness) key => C.publicKey key = .ok w.vkey ∧ C.sign key hs = .ok w.signature) (view b' h).witness b.xprvs := by
  obtain ⟨body, bb, ws, h1, h2, h3, h4, h5⟩ := build_ok C b b' h e
  have hv := view_build b b' h body ws h4 h5
  rw [hv]
  refine ⟨C.blake256 bb, ?_, witnessesOf_ok C _ _ _ h3⟩
  have hc : calcAux C ⟨body, ws, b.valid, b.metadata⟩ k = .ok body := by
    cases hm : b.metadata with
    | none => rfl
    | some md =>
      unfold calcAux at h1
      have hm' : (tx b).metadata = some md := hm
      rw [hm'] at h1
      simp only at h1
      cases hen : md.enc b.clock with
      | ok m =>
        simp only [hen] at h1
        injection h1 with h1
        have : md.enc k = .ok m := by rw [← hen]; exact hd md hm k b.clock
        unfold calcAux
        simp only [this]
        rw [← h1]
      | err m => simp only [hen] at h1; cases h1
      | panic => simp only [hen] at h1; cases h1
  unfold Transaction.hash
  rw [hc]
  simp only [Res.ok_bind]
  rw [h2]; rfl

/-- **C25.** With deterministic metadata a second `Build` returns the same transaction, and the first result is not changed by it. -/
theorem C25_build_idempotent (C : Crypto) (b b' : Builder) (h : Handle) (e : Build C b = (.ok h, b')) (hd : Deterministic b.metadata) :
    ∃ h' b'', Build C b' = (.ok h', b'') ∧ view b'' h' = view b' h ∧ view b'' h = view b' h := by
  obtain ⟨hs, hh, _⟩ := C24_signed_hash_is_txid C b b' h e hd b'.clock
  obtain ⟨body, bb, ws, h1, h2, h3, h4, h5⟩ := build_ok C b b' h e
  have hv := view_build b b' h body ws h4 h5
  have htx : tx b' = view b' h := by
    rw [hv, h5]; simp [TxBuilder.tx, witAt]
  have hm : b'.metadata = b.metadata := by rw [h5]
  obtain ⟨body', hc', hh⟩ := bind_ok hh
  obtain ⟨bb', hb', hh⟩ := bind_ok hh
  injection hh with hh
  have hbody : body' = body := by
    have hk : calcAux C (view b' h) b'.clock = .ok body := by
      rw [hv]
      cases hmd : b.metadata with
      | none => rfl
      | some md =>
        unfold calcAux at h1
        have hm' : (tx b).metadata = some md := hmd
        rw [hm'] at h1
        simp only at h1
        cases hen : md.enc b.clock with
        | ok m =>
          simp only [hen] at h1
          injection h1 with h1
          have : md.enc b'.clock = .ok m := by rw [← hen]; exact hd md hmd _ b.clock
          unfold calcAux
          simp only [this]
          rw [← h1]
        | err m => simp only [hen] at h1; cases h1
        | panic => simp only [hen] at h1; cases h1
    rw [hk] at hc'; injection hc' with hc'; exact hc'.symm
  subst hbody
  rw [h2] at hb'
  injection hb' with hb'
  subst hb'
  have hx : b'.xprvs = b.xprvs := by rw [h5]
  have hbb : b'.body = body' := by rw [h5]
  have hB : Build C b' = (.ok ⟨b'.wits.length, b'.valid, b'.metadata⟩,
      { b' with body := body', clock := b'.clock + 1, wits := b'.wits ++ [ws], wit := b'.wits.length }) := by
    unfold Build
    have e1 : Transaction.hash C (tx b') b'.clock = .ok (C.blake256 bb) := by
      rw [htx]; unfold Transaction.hash; rw [hc']; simp only [Res.ok_bind]; rw [h2]; rfl
    have e2 : (afterAux C (tx b') b'.clock).body = body' := by rw [htx]; unfold afterAux; rw [hc']
    rw [e1]
    simp only [hx, h3, e2]
  refine ⟨_, _, hB, ?_, ?_⟩
  · rw [view_build b' _ _ body' ws rfl rfl, hv]
    have : b'.valid = b.valid := by rw [h5]
    rw [this, hm]
  · rw [hv, h4, h5]
    simp [view, witAt]

/-- **C25 (Build keeps the rest).** Whether it succeeds or not, `Build` leaves inputs, outputs, fee, time to live, keys, metadata and parameters of the builder as they were. -/
theorem C25_build_keeps (C : Crypto) (b : Builder) : let b' := (Build C b).2
    b'.body.inputs = b.body.inputs ∧ b'.body.outputs = b.body.outputs ∧ b'.body.fee = b.body.fee ∧ b'.body.ttl = b.body.ttl ∧
    b'.xprvs = b.xprvs ∧ b'.metadata = b.metadata ∧ b'.protocol = b.protocol := by
  have key : let x := (afterAux C (tx b) b.clock).body
      x.inputs = b.body.inputs ∧ x.outputs = b.body.outputs ∧ x.fee = b.body.fee ∧ x.ttl = b.body.ttl := by
    unfold afterAux
    cases h : calcAux C (tx b) b.clock with
    | ok x => exact calcAux_outputs C (tx b) b.clock x h
    | err m => exact ⟨rfl, rfl, rfl, rfl⟩
    | panic => exact ⟨rfl, rfl, rfl, rfl⟩
  unfold Build
  obtain ⟨h1, h2, h3, h4⟩ := key
  cases Transaction.hash C (tx b) b.clock with
  | err m => exact ⟨h1, h2, h3, h4, rfl, rfl, rfl⟩
  | panic => exact ⟨h1, h2, h3, h4, rfl, rfl, rfl⟩
  | ok hs =>
    dsimp only
    cases witnessesOf C hs b.xprvs with
    | err m => exact ⟨h1, h2, h3, h4, rfl, rfl, rfl⟩
    | panic => exact ⟨h1, h2, h3, h4, rfl, rfl, rfl⟩
    | ok ws => exact ⟨h1, h2, h3, h4, rfl, rfl, rfl⟩

/-! ### C28: a built transaction shares its body with the builder -/

/-- **C28 is false**: after `Build`, adding an output to the builder changes the outputs of the transaction that was returned, so
its signatures no longer cover it. -/
theorem C28_built_tx_changes (C : Crypto) (b b' : Builder) (h : Handle) (_e : Build C b = (.ok h, b')) (o : TxOutput) :
    (view (AddOutputs b' [o]) h).body.outputs = (view b' h).body.outputs ++ [o] ∧
    (view (AddOutputs b' [o]) h).witness = (view b' h).witness := ⟨rfl, rfl⟩

/-- ... and `MinFee` after a `Build` without signing keys adds a bogus witness to the transaction that was returned. -/
theorem C28_minfee_changes_built_tx (C : Crypto) (b b' : Builder) (h : Handle) (e : Build C b = (.ok h, b')) (hk : b.xprvs = []) :
    (view b' h).witness = [] ∧ (view (MinFee C b').2 h).witness = [⟨List.replicate 32 0, List.replicate 64 0⟩] := by
  obtain ⟨body, bb, ws, h1, h2, h3, h4, h5⟩ := build_ok C b b' h e
  have hws : ws = [] := by rw [hk] at h3; injection h3 with h3; exact h3.symm
  subst hws
  have hv := view_build b b' h body [] h4 h5
  refine ⟨by rw [hv], ?_⟩
  have hwit : b'.wit = b.wits.length := by rw [h5]
  have hwits : b'.wits = b.wits ++ [[]] := by rw [h5]
  have hw : witAt b' b'.wit = [] := by rw [hwit, witAt, hwits]; simp
  have hw' : (witAt b' b'.wit).length = 0 := by rw [hw]; rfl
  show (if (witAt b' b'.wit).length = 0 then b'.wits.set b'.wit [dummyWitness] else b'.wits).getD h.wit [] = _
  rw [if_pos hw', hwits, hwit, h4]
  simp [dummyWitness]

/-- Calls after `Build` that leave the returned transaction alone. -/
def Harmless : Op → Prop
  | .sign _ => True
  | .minFee => True
  | .build => True
  | .bytesOf h => ∃ n v m, h = ⟨n, v, m⟩ ∧ m = none
  | _ => False

theorem afterAux_none (C : Crypto) (t : Tx) (k : Nat) (h : t.metadata = none) : afterAux C t k = t := by
  cases t; cases h; rfl

/-- **C28 (partial).** Without metadata: if the returned transaction carries at least one witness, then any number of later
calls of `Sign`, `MinFee`, `Build`, `Bytes`, `Hex`, `Fee` leave it unchanged. Missing: calls that add inputs or outputs or
set the ttl change it. -/
theorem C28_built_tx_stable_partial (C : Crypto) (h : Handle) (ops : List Op) (hops : ∀ op ∈ ops, Harmless op) :
    ∀ (b : Builder), b.metadata = none → h.wit < b.wits.length → (view b h).witness ≠ [] →
    view (run C b ops) h = view b h := by
  induction ops with
  | nil => intro b _ _ _; rfl
  | cons op ops ih =>
    intro b hm hlt hne
    have key : ∀ b1 : Builder, step C b op = b1 → b1.metadata = none → h.wit < b1.wits.length → view b1 h = view b h →
        view (run C b (op :: ops)) h = view b h := by
      intro b1 hs hm1 hl1 hv
      show view (run C (step C b op) ops) h = _
      rw [hs, ih (fun o ho => hops o (by simp [ho])) b1 hm1 hl1 (by rw [hv]; exact hne), hv]
    have hh := hops op (by simp)
    cases op with
    | sign k => exact key _ rfl hm hlt rfl
    | minFee =>
      refine key _ rfl hm ?_ ?_
      · show h.wit < (if (witAt b b.wit).length = 0 then b.wits.set b.wit [dummyWitness] else b.wits).length
        split <;> simpa using hlt
      · show view { b with wits := _, clock := _ } h = _
        unfold view
        simp only [Tx.mk.injEq, true_and, and_true]
        unfold witAt
        simp only
        split
        · rename_i h0
          have : h.wit ≠ b.wit := by
            intro e; apply hne; show witAt b h.wit = []; rw [e]; exact List.length_eq_zero_iff.1 h0
          simp [Ne.symm this]
        · rfl
    | build =>
      have hbody : (afterAux C (tx b) b.clock).body = b.body := by rw [afterAux_none C (tx b) _ hm]; rfl
      refine key _ rfl ?_ ?_ ?_
      · show (Build C b).2.metadata = none
        unfold Build; simp only; split <;> try exact hm
        split <;> exact hm
      · show h.wit < (Build C b).2.wits.length
        unfold Build; simp only; split <;> try exact hlt
        split <;> first | exact hlt | (simp; omega)
      · show view (Build C b).2 h = _
        unfold Build; simp only [hbody]; split <;> try rfl
        split <;> try rfl
        simp only [view, Tx.mk.injEq, true_and, and_true, witAt]
        rw [List.getD_eq_getElem?_getD, List.getD_eq_getElem?_getD, List.getElem?_append_left hlt]
    | bytesOf g =>
      obtain ⟨n, v, m, rfl, rfl⟩ := hh
      refine key _ rfl hm hlt ?_
      show view { b with body := (afterAux C (view b ⟨n, v, none⟩) b.clock).body, clock := _ } h = _
      rw [afterAux_none C _ _ rfl]
      rfl
    | addInputs l => exact absurd hh id
    | addOutputs l => exact absurd hh id
    | setTTL n => exact absurd hh id
    | addChange a => exact absurd hh id
    | setMetadata m => exact absurd hh id

/-! ### C29: the builder state is the history of calls -/

/-- Inputs added by a call. -/
def inputsOf : Op → List TxInput
  | .addInputs l => l
  | _ => []
/-- Addresses of the outputs added by a call. -/
def outAddrsOf : Op → List Address
  | .addOutputs l => l.map (·.address)
  | .addChange a => [a]
  | _ => []
/-- Outputs added by a call other than `AddChangeIfNeeded`. -/
def outputsOf : Op → List TxOutput
  | .addOutputs l => l
  | _ => []
/-- Keys added by a call. -/
def keysOf : Op → List Bytes
  | .sign k => [k]
  | _ => []
/-- The last time to live that was set. -/
def lastTTL (ttl : UInt32) : List Op → UInt32
  | [] => ttl
  | .setTTL n :: ops => lastTTL n ops
  | _ :: ops => lastTTL ttl ops

theorem afterAux_fields (C : Crypto) (t : Tx) (k : Nat) :
    (afterAux C t k).body.inputs = t.body.inputs ∧ (afterAux C t k).body.outputs = t.body.outputs ∧
    (afterAux C t k).body.ttl = t.body.ttl ∧ (afterAux C t k).body.fee = t.body.fee := by
  unfold afterAux
  cases e : calcAux C t k with
  | ok b => obtain ⟨h1, h2, h3, h4⟩ := calcAux_outputs C t k b e; exact ⟨h1, h2, h4, h3⟩
  | err m => exact ⟨rfl, rfl, rfl, rfl⟩
  | panic => exact ⟨rfl, rfl, rfl, rfl⟩

theorem build_fields (C : Crypto) (b : Builder) :
    (Build C b).2.body.inputs = b.body.inputs ∧ (Build C b).2.body.outputs = b.body.outputs ∧
    (Build C b).2.body.ttl = b.body.ttl ∧ (Build C b).2.xprvs = b.xprvs ∧ (Build C b).2.protocol = b.protocol := by
  obtain ⟨h1, h2, h3, _⟩ := afterAux_fields C (tx b) b.clock
  unfold Build; simp only
  split
  · exact ⟨h1, h2, h3, rfl, rfl⟩
  · exact ⟨h1, h2, h3, rfl, rfl⟩
  · split <;> exact ⟨h1, h2, h3, rfl, rfl⟩

/-- **C29.** After any sequence of calls the inputs are the added inputs in order, the output addresses the added ones in order,
the ttl the last one set, the signing keys the initial ones followed by those added, in order; without
`AddChangeIfNeeded` the outputs are exactly the added outputs in order. -/
theorem C29_history (C : Crypto) (ops : List Op) : ∀ (b : Builder),
    let b' := run C b ops
    b'.body.inputs = b.body.inputs ++ ops.flatMap inputsOf ∧
    b'.body.outputs.map (·.address) = b.body.outputs.map (·.address) ++ ops.flatMap outAddrsOf ∧
    b'.body.ttl = lastTTL b.body.ttl ops ∧
    b'.xprvs = b.xprvs ++ ops.flatMap keysOf ∧
    b'.protocol = b.protocol ∧
    ((∀ op ∈ ops, ∀ a, op ≠ .addChange a) → b'.body.outputs = b.body.outputs ++ ops.flatMap outputsOf) := by
  induction ops with
  | nil => intro b; simp [run, lastTTL]
  | cons op ops ih =>
    intro b
    obtain ⟨h1, h2, h3, h4, h5, h6⟩ := ih (step C b op)
    have hr : run C b (op :: ops) = run C (step C b op) ops := rfl
    rw [hr]
    simp only at h1 h2 h3 h4 h5 h6 ⊢
    simp only [List.flatMap_cons]
    rw [h1, h2, h3, h4, h5]
    have hs : (step C b op).body.inputs = b.body.inputs ++ inputsOf op ∧
        (step C b op).body.outputs.map (·.address) = b.body.outputs.map (·.address) ++ outAddrsOf op ∧
        lastTTL (step C b op).body.ttl ops = lastTTL b.body.ttl (op :: ops) ∧
        (step C b op).xprvs = b.xprvs ++ keysOf op ∧ (step C b op).protocol = b.protocol ∧
        ((∀ a, op ≠ .addChange a) → (step C b op).body.outputs = b.body.outputs ++ outputsOf op) := by
      cases op with
      | addInputs l => simp [step, AddInputs, inputsOf, outAddrsOf, outputsOf, keysOf, lastTTL]
      | addOutputs l => simp [step, AddOutputs, inputsOf, outAddrsOf, outputsOf, keysOf, lastTTL]
      | setTTL n => simp [step, SetTTL, inputsOf, outAddrsOf, outputsOf, keysOf, lastTTL]
      | sign k => simp [step, Sign, inputsOf, outAddrsOf, outputsOf, keysOf, lastTTL]
      | minFee => simp [step, MinFee, inputsOf, outAddrsOf, outputsOf, keysOf, lastTTL]
      | addChange a =>
        simp only [step]
        rw [addChange_eq]
        simp [MinFee, inputsOf, outAddrsOf, keysOf, lastTTL]
      | build =>
        obtain ⟨g1, g2, g3, g4, g5⟩ := build_fields C b
        simp [step, g1, g2, g3, g4, g5, inputsOf, outAddrsOf, outputsOf, keysOf, lastTTL]
      | setMetadata m => simp [step, setMetadata, inputsOf, outAddrsOf, outputsOf, keysOf, lastTTL]
      | bytesOf h =>
        obtain ⟨g1, g2, g3, _⟩ := afterAux_fields C (view b h) b.clock
        simp only [step, bytesOf]
        refine ⟨?_, ?_, ?_, ?_, trivial, fun _ => ?_⟩
        · rw [g1]; simp [inputsOf, view]
        · rw [g2]; simp [outAddrsOf, view]
        · rw [g3]; rfl
        · simp [keysOf]
        · rw [g2]; simp [outputsOf, view]
    obtain ⟨s1, s2, s3, s4, s5, s6⟩ := hs
    rw [s1, s2, s3, s4, s5]
    refine ⟨by simp, by simp, by simp, by simp, by simp, fun hno => ?_⟩
    rw [h6 (fun o ho => hno o (by simp [ho])), s6 (hno op (by simp))]
    simp

/-- A new builder starts empty, so C29 describes it completely. -/
theorem C29_new (p : Protocol) (ks : List Bytes) :
    (NewTxBuilder p ks).body = ⟨[], [], 0, 0, []⟩ ∧ (NewTxBuilder p ks).xprvs = ks ∧ (NewTxBuilder p ks).metadata = none := ⟨rfl, rfl, rfl⟩

/-! ### C54 -/

/-- **C54 is false**: with an output to a reward address `MinFee` returns 0, whatever the protocol parameters. -/
theorem C54_minfee_zero (C : Crypto) (b : Builder) (o : TxOutput) (ho : o ∈ b.body.outputs) (n : NetworkInfo) (c : Cred)
    (ha : o.address = .reward n c) : (MinFee C b).1 = 0 := by
  show feePasses C ⟨b.protocol.txFeePerByte, b.protocol.txFeeFixed⟩ (feeTx C b b.clock) (b.clock + 1) = 0
  have hmem : o ∈ (feeTx C b b.clock).body.outputs := by
    unfold feeTx
    dsimp only
    obtain ⟨_, g2, _, _⟩ := afterAux_fields C ⟨⟨b.body.inputs, b.body.outputs, b.body.fee, b.body.ttl, []⟩, witAt b b.wit, true, b.metadata⟩ b.clock
    have : o ∈ (afterAux C ⟨⟨b.body.inputs, b.body.outputs, b.body.fee, b.body.ttl, []⟩, witAt b b.wit, true, b.metadata⟩ b.clock).body.outputs := by
      rw [g2]; exact ho
    split <;> split <;> simp [this]
  unfold feePasses
  have hz : ∀ (t : Tx) (k : Nat), o ∈ t.body.outputs → orZero (fee C ⟨b.protocol.txFeePerByte, b.protocol.txFeeFixed⟩ t k) = 0 := by
    intro t k ht
    have := (C30_reward_never_serialises C ⟨b.protocol.txFeePerByte, b.protocol.txFeeFixed⟩ t k o ht n c ha).2.2
    cases hf : fee C ⟨b.protocol.txFeePerByte, b.protocol.txFeeFixed⟩ t k with
    | ok f => exact absurd hf (this f)
    | err m => rfl
    | panic => rfl
  apply hz
  simp only
  rw [(afterAux_fields C _ _).2.1]
  exact hmem

/-- The outputs of the fee transaction serialise when the outputs of the builder do. -/
theorem feeOuts_ok (b : Builder) (outs : List Bytes) (h : collect (b.body.outputs.map marshalOutput) = .ok outs) :
    ∃ outs', collect ((feeOuts b).map marshalOutput) = .ok outs' := by
  unfold feeOuts
  split
  · obtain ⟨ab, hab, _⟩ := innerAddr_bytes
    have hd : marshalOutput ⟨innerAddr, totalIn b.body.inputs - totalOut b.body.outputs - 200000⟩ =
        .ok (encArray [ab, encUint (totalIn b.body.inputs - totalOut b.body.outputs - 200000)]) := by
      unfold marshalOutput; simp only [hab, Res.ok_bind]; rfl
    exact ⟨_, (collect_append _ _ _).2 ⟨outs, _, h, hd, rfl⟩⟩
  · exact ⟨outs, h⟩

/-- **C54 (partial).** If the outputs and the metadata serialise, the metadata always to the same number of bytes, then `MinFee` is `TxFeeFixed` plus `TxFeePerByte`
times some size; hence at least `TxFeeFixed` when this does not exceed 64 bits. -/
theorem C54_minfee_ge_fixed_partial (C : Crypto) (hH : ∀ m, (C.blake256 m).length = 32) (b : Builder) (outs : List Bytes) (n : Nat)
    (ho : collect (b.body.outputs.map marshalOutput) = .ok outs)
    (hm : ∀ k, ∃ m, marshalMetadata b.metadata k = .ok m ∧ m.length = n) :
    ∃ len, (MinFee C b).1 = b.protocol.txFeeFixed + b.protocol.txFeePerByte * UInt64.ofNat len ∧
      (linearFee b.protocol len < 2 ^ 64 → len < 2 ^ 64 → b.protocol.txFeeFixed.toNat ≤ (MinFee C b).1.toNat) := by
  obtain ⟨outs', ho'⟩ := feeOuts_ok b outs ho
  obtain ⟨len1, len2, fee1, _, h2, _⟩ := minFee_of C hH b n outs' hm ho'
  refine ⟨len2, h2, fun hl hl2 => ?_⟩
  rw [h2, UInt64.toNat_add, UInt64.toNat_mul, ofNat64 _ hl2]
  unfold linearFee at hl
  rw [Nat.mod_eq_of_lt (show b.protocol.txFeePerByte.toNat * len2 < 2 ^ 64 by omega), Nat.mod_eq_of_lt hl]
  omega

/-! ### C20: is the fee of the built transaction high enough? -/

theorem wsize_mono {a b : Nat} (h : a ≤ b) : wsize a ≤ wsize b := by
  have := uintSize_mono h
  unfold wsize; split <;> split <;> omega

theorem toNat_formula (fixed perByte : UInt64) (len : Nat) (h : fixed.toNat + perByte.toNat * len < 2 ^ 64) (hl : len < 2 ^ 64) :
    (fixed + perByte * UInt64.ofNat len).toNat = fixed.toNat + perByte.toNat * len := by
  rw [UInt64.toNat_add, UInt64.toNat_mul, ofNat64 _ hl, Nat.mod_eq_of_lt (show perByte.toNat * len < 2 ^ 64 by omega), Nat.mod_eq_of_lt h]

theorem toNat_formula_le (fixed perByte : UInt64) (len : Nat) :
    (fixed + perByte * UInt64.ofNat len).toNat ≤ fixed.toNat + perByte.toNat * len := by
  rw [UInt64.toNat_add, UInt64.toNat_mul]
  have h1 : (UInt64.ofNat len).toNat ≤ len := by simp; exact Nat.mod_le _ _
  have h2 := Nat.mul_le_mul_left perByte.toNat h1
  have h3 := Nat.mod_le (perByte.toNat * (UInt64.ofNat len).toNat) (2 ^ 64)
  have h4 := Nat.mod_le (fixed.toNat + perByte.toNat * (UInt64.ofNat len).toNat % 2 ^ 64) (2 ^ 64)
  omega

theorem sub_toNat (b : Builder) (f : UInt64) (hI : sumIn b.body.inputs < 2 ^ 64) (hc : sumOut b.body.outputs + f.toNat ≤ sumIn b.body.inputs) :
    (totalIn b.body.inputs - totalOut b.body.outputs - f).toNat = sumIn b.body.inputs - sumOut b.body.outputs - f.toNat := by
  have hi := totalIn_toNat b.body.inputs
  have ho := totalOut_toNat b.body.outputs
  have hf := UInt64.toNat_lt f
  rw [UInt64.toNat_sub, UInt64.toNat_sub, hi, ho, Nat.mod_eq_of_lt hI, Nat.mod_eq_of_lt (show sumOut b.body.outputs < 2 ^ 64 by omega)]
  omega

theorem total_ne (b : Builder) (hI : sumIn b.body.inputs < 2 ^ 64) (hlt : sumOut b.body.outputs < sumIn b.body.inputs) :
    totalIn b.body.inputs ≠ totalOut b.body.outputs := by
  intro e
  have := congrArg UInt64.toNat e
  rw [totalIn_toNat, totalOut_toNat, Nat.mod_eq_of_lt hI, Nat.mod_eq_of_lt (by omega)] at this
  omega

/-- What the user of the builder did, for the C20 theorems: `AddChangeIfNeeded`, then `Sign` for each of `keys`, then a successful
`Build`, then a successful `Bytes` of the returned transaction. -/
structure Built (C : Crypto) (b : Builder) (addr : Address) (keys : List Bytes) (t : Tx) (bs : Bytes) : Prop where
  run : ∃ h b' k, Build C (keys.foldl Sign (AddChangeIfNeeded C b addr)) = (.ok h, b') ∧ view b' h = t ∧ bytes C t k = .ok bs

/-- Hash, public key and signature sizes, and metadata that serialises, always to the same number of bytes (the bytes themselves may
change from call to call, as with Go maps). -/
structure Regular (C : Crypto) (b : Builder) : Prop where
  hash : ∀ m, (C.blake256 m).length = 32
  key : ∀ k pk, C.publicKey k = .ok pk → pk.length = 32
  sig : ∀ k msg s, C.sign k msg = .ok s → s.length = 64
  md : ∃ n, ∀ k, ∃ m, marshalMetadata b.metadata k = .ok m ∧ m.length = n
  aux : b.metadata = none → b.body.auxHash = []
  wits : StdWit (tx b).witness

/-- **C20 (partial).** `AddChangeIfNeeded`, `Sign`, `Build`: the fee of the built transaction is at least the linear
fee of its own serialised size, if there are not more signing keys than one (or than witnesses already present), the
change address is not longer than a base address, the inputs cover everything, and the amount of the change is not
encoded in more bytes than the placeholder amount (input - output - 200000); parameters are such that the fee is a 32-bit
number. Missing: each of the first, second and fourth conditions is needed, see the next theorems. -/
theorem C20_fee_sufficient_partial (C : Crypto) (b : Builder) (addr : Address) (keys : List Bytes) (t : Tx) (bs ab : Bytes)
    (hb : Built C b addr keys t bs) (hr : Regular C b)
    (hkeys : (b.xprvs ++ keys).length ≤ max 1 (tx b).witness.length) (hwl : (tx b).witness.length ≤ 100)
    (hol : b.body.outputs.length < 2 ^ 32)
    (hab : marshalAddress addr = .ok ab) (habl : ab.length ≤ 59)
    (hI : sumIn b.body.inputs < 2 ^ 64) (hlt : sumOut b.body.outputs < sumIn b.body.inputs)
    (hcover : sumOut b.body.outputs + t.body.fee.toNat ≤ sumIn b.body.inputs)
    (hwidth : sumIn b.body.inputs - sumOut b.body.outputs < 200000 ∨
      uintSize (sumIn b.body.inputs - sumOut b.body.outputs - t.body.fee.toNat) ≤ uintSize (sumIn b.body.inputs - sumOut b.body.outputs - 200000))
    (hfix : 65536 ≤ b.protocol.txFeeFixed.toNat) (hfix2 : b.protocol.txFeeFixed.toNat < 2 ^ 31) (hper : b.protocol.txFeePerByte.toNat < 2 ^ 16)
    (hmax : bs.length ≤ 16384) :
    linearFee b.protocol bs.length ≤ t.body.fee.toNat := by
  obtain ⟨h, b', k, e, rfl, eb⟩ := hb.run
  obtain ⟨m, hm⟩ := hr.md
  have hwl' : (witAt b b.wit).length ≤ 100 := hwl
  have hkeys' : (b.xprvs ++ keys).length ≤ max 1 (witAt b b.wit).length := hkeys
  obtain ⟨len1, len2, fee1, f1, f2, hl, hf, hs⟩ := built_size C hr.hash hr.key hr.sig b addr keys m ab hm hr.aux hr.wits
    (by omega) (by omega) (by omega) hab (total_ne b hI hlt) h b' e k bs eb
  rw [hf] at hcover hwidth ⊢
  have hfw : (feeWits b).length = max 1 (witAt b b.wit).length := by
    unfold feeWits; split
    · rename_i h0; rw [h0]; rfl
    · omega
  have hmono := wsize_mono (show (b.xprvs ++ keys).length ≤ (feeWits b).length by omega)
  have hwmax : wsize (feeWits b).length ≤ 10111 := by
    have := uintSize_le (feeWits b).length
    unfold wsize; split <;> omega
  have hch := sub_toNat b (MinFee C b).1 hI hcover
  have u1 := uintSize_le b.body.fee.toNat
  have u2 := uintSize_le fee1.toNat
  have u3 := uintSize_le (MinFee C b).1.toNat
  have u4 := uintSize_le (totalIn b.body.inputs - totalOut b.body.outputs - 200000).toNat
  have hl2 : len2 < 2 ^ 15 := by omega
  have hl1 : len1 < 2 ^ 15 := by omega
  have hmul : ∀ len, len < 2 ^ 15 → b.protocol.txFeePerByte.toNat * len < 2 ^ 31 := by
    intro len hlen
    calc b.protocol.txFeePerByte.toNat * len ≤ b.protocol.txFeePerByte.toNat * 2 ^ 15 := Nat.mul_le_mul_left _ (by omega)
      _ < 2 ^ 16 * 2 ^ 15 := Nat.mul_lt_mul_of_pos_right hper (by decide)
      _ = 2 ^ 31 := by decide
  have m1 := hmul len1 hl1
  have m2 := hmul len2 hl2
  have F1 := toNat_formula b.protocol.txFeeFixed b.protocol.txFeePerByte len1 (by omega) (by omega)
  have F2 := toNat_formula b.protocol.txFeeFixed b.protocol.txFeePerByte len2 (by omega) (by omega)
  rw [← f1] at F1
  rw [← f2] at F2
  have s5 : ∀ n : Nat, 65536 ≤ n → n < 2 ^ 32 → uintSize n = 5 := by
    intro n h1 h2; unfold uintSize; repeat' split
    all_goals omega
  rw [s5 fee1.toNat (by omega) (by omega), s5 (MinFee C b).1.toNat (by omega) (by omega)] at hs
  have hw : uintSize (totalIn b.body.inputs - totalOut b.body.outputs - (MinFee C b).1).toNat ≤
      uintSize (totalIn b.body.inputs - totalOut b.body.outputs - 200000).toNat := by
    rw [hch]
    by_cases c : sumIn b.body.inputs - sumOut b.body.outputs < 200000
    · have : 2 ^ 32 ≤ (totalIn b.body.inputs - totalOut b.body.outputs - 200000).toNat := by
        have hi := totalIn_toNat b.body.inputs
        have ho := totalOut_toNat b.body.outputs
        rw [UInt64.toNat_sub, UInt64.toNat_sub, hi, ho, Nat.mod_eq_of_lt hI,
          Nat.mod_eq_of_lt (show sumOut b.body.outputs < 2 ^ 64 by omega), show (200000 : UInt64).toNat = 200000 from rfl]
        omega
      have h9 : uintSize (totalIn b.body.inputs - totalOut b.body.outputs - 200000).toNat = 9 := by
        unfold uintSize; repeat' split
        all_goals omega
      rw [h9]; exact (uintSize_le _).2
    · have := sub_toNat b 200000 hI (by rw [show (200000 : UInt64).toNat = 200000 from rfl]; omega)
      rw [this, show (200000 : UInt64).toNat = 200000 from rfl]
      rcases hwidth with h | h
      · exact absurd h c
      · exact h
  have hle : bs.length ≤ len2 := by omega
  have := Nat.mul_le_mul_left b.protocol.txFeePerByte.toNat hle
  unfold linearFee
  omega

/-- **C20, exactly**: with as many keys as `MinFee` counts (one, or the witnesses already present), the fee is the linear fee of the size of the built
transaction, plus the price of the bytes by which address and amount of the change are shorter than those of the placeholder (59 bytes; input - output - 200000), or
minus the price of those by which they are longer. -/
theorem C20_exact (C : Crypto) (b : Builder) (addr : Address) (keys : List Bytes) (t : Tx) (bs ab : Bytes)
    (hb : Built C b addr keys t bs) (hr : Regular C b)
    (hkeys : (b.xprvs ++ keys).length = max 1 (tx b).witness.length) (hwl : (tx b).witness.length ≤ 100)
    (hol : b.body.outputs.length < 2 ^ 32) (hab : marshalAddress addr = .ok ab)
    (hI : sumIn b.body.inputs < 2 ^ 64) (hcover : sumOut b.body.outputs + t.body.fee.toNat ≤ sumIn b.body.inputs)
    (hcover2 : sumOut b.body.outputs + 200000 ≤ sumIn b.body.inputs)
    (hfix : 65536 ≤ b.protocol.txFeeFixed.toNat) (hfix2 : b.protocol.txFeeFixed.toNat < 2 ^ 31) (hper : b.protocol.txFeePerByte.toNat < 2 ^ 16)
    (hmax : bs.length ≤ 16384) :
    t.body.fee.toNat + b.protocol.txFeePerByte.toNat * (ab.length + uintSize (sumIn b.body.inputs - sumOut b.body.outputs - t.body.fee.toNat)) =
      linearFee b.protocol bs.length + b.protocol.txFeePerByte.toNat * (59 + uintSize (sumIn b.body.inputs - sumOut b.body.outputs - 200000)) := by
  obtain ⟨h, b', k, e, rfl, eb⟩ := hb.run
  obtain ⟨m, hm⟩ := hr.md
  have hwl' : (witAt b b.wit).length ≤ 100 := hwl
  have hkeys' : (b.xprvs ++ keys).length = max 1 (witAt b b.wit).length := hkeys
  obtain ⟨len1, len2, fee1, f1, f2, hl, hf, hs⟩ := built_size C hr.hash hr.key hr.sig b addr keys m ab hm hr.aux hr.wits
    (by omega) (by omega) (by omega) hab (total_ne b hI (by omega)) h b' e k bs eb
  rw [hf] at hcover ⊢
  have hfw : (feeWits b).length = (b.xprvs ++ keys).length := by
    rw [hkeys']
    unfold feeWits; split
    · rename_i h0; rw [h0]; rfl
    · omega
  rw [hfw] at hs
  have hch := sub_toNat b (MinFee C b).1 hI hcover
  have hph := sub_toNat b 200000 hI (by rw [show (200000 : UInt64).toNat = 200000 from rfl]; omega)
  rw [show (200000 : UInt64).toNat = 200000 from rfl] at hph
  have u1 := uintSize_le b.body.fee.toNat
  have u2 := uintSize_le fee1.toNat
  have u3 := uintSize_le (MinFee C b).1.toNat
  have u4 := uintSize_le (totalIn b.body.inputs - totalOut b.body.outputs - 200000).toNat
  have hl2 : len2 < 2 ^ 15 := by omega
  have hl1 : len1 < 2 ^ 15 := by omega
  have hmul : ∀ len, len < 2 ^ 15 → b.protocol.txFeePerByte.toNat * len < 2 ^ 31 := by
    intro len hlen
    calc b.protocol.txFeePerByte.toNat * len ≤ b.protocol.txFeePerByte.toNat * 2 ^ 15 := Nat.mul_le_mul_left _ (by omega)
      _ < 2 ^ 16 * 2 ^ 15 := Nat.mul_lt_mul_of_pos_right hper (by decide)
      _ = 2 ^ 31 := by decide
  have m1 := hmul len1 hl1
  have m2 := hmul len2 hl2
  have F1 := toNat_formula b.protocol.txFeeFixed b.protocol.txFeePerByte len1 (by omega) (by omega)
  have F2 := toNat_formula b.protocol.txFeeFixed b.protocol.txFeePerByte len2 (by omega) (by omega)
  rw [← f1] at F1
  rw [← f2] at F2
  have s5 : ∀ n : Nat, 65536 ≤ n → n < 2 ^ 32 → uintSize n = 5 := by
    intro n h1 h2; unfold uintSize; repeat' split
    all_goals omega
  rw [s5 fee1.toNat (by omega) (by omega), s5 (MinFee C b).1.toNat (by omega) (by omega), hch, hph] at hs
  have hle : len2 + (ab.length + uintSize (sumIn b.body.inputs - sumOut b.body.outputs - (MinFee C b).1.toNat)) =
      bs.length + (59 + uintSize (sumIn b.body.inputs - sumOut b.body.outputs - 200000)) := by omega
  have := congrArg (b.protocol.txFeePerByte.toNat * ·) hle
  simp only [Nat.mul_add] at this
  unfold linearFee
  simp only [Nat.mul_add]
  omega

/-- **C20 is false with two or more keys**: whenever the inputs cover outputs and fee, the placeholder `200000` is not below the
fee, and change goes to a base address (or a longer one), the built transaction pays too little, by at least 93 times the
price of a byte. -/
theorem C20_multisig_underpays (C : Crypto) (b : Builder) (addr : Address) (keys : List Bytes) (t : Tx) (bs ab : Bytes)
    (hb : Built C b addr keys t bs) (hr : Regular C b)
    (hkeys : 2 ≤ (b.xprvs ++ keys).length) (hkl : (b.xprvs ++ keys).length < 2 ^ 63) (hw0 : (tx b).witness = [])
    (hol : b.body.outputs.length < 2 ^ 32)
    (hab : marshalAddress addr = .ok ab) (habl : 59 ≤ ab.length)
    (hI : sumIn b.body.inputs < 2 ^ 64) (hfee : t.body.fee.toNat ≤ 200000)
    (hcover : sumOut b.body.outputs + 200000 ≤ sumIn b.body.inputs) :
    t.body.fee.toNat + 93 * b.protocol.txFeePerByte.toNat ≤ linearFee b.protocol bs.length := by
  obtain ⟨h, b', k, e, rfl, eb⟩ := hb.run
  obtain ⟨m, hm⟩ := hr.md
  have hw0' : witAt b b.wit = [] := hw0
  obtain ⟨len1, len2, fee1, f1, f2, hl, hf, hs⟩ := built_size C hr.hash hr.key hr.sig b addr keys m ab hm hr.aux hr.wits
    (by rw [hw0']; decide) (by omega) (by omega) hab (total_ne b hI (by omega)) h b' e k bs eb
  rw [hf] at hfee ⊢
  have hfw : (feeWits b).length = 1 := by unfold feeWits; rw [hw0']; rfl
  rw [hfw, show wsize 1 = 104 by decide] at hs
  have hmono := wsize_mono hkeys
  rw [show wsize 2 = 205 by decide] at hmono
  have u2 := uintSize_le fee1.toNat
  have u3 := uintSize_le (MinFee C b).1.toNat
  have c1 := sub_toNat b (MinFee C b).1 hI (by omega)
  have c2 := sub_toNat b 200000 hI (by rw [show (200000 : UInt64).toNat = 200000 from rfl]; omega)
  rw [c1, c2, show (200000 : UInt64).toNat = 200000 from rfl] at hs
  have hm2 := uintSize_mono (show sumIn b.body.inputs - sumOut b.body.outputs - 200000 ≤ sumIn b.body.inputs - sumOut b.body.outputs - (MinFee C b).1.toNat by omega)
  have hle : len2 + 93 ≤ bs.length := by omega
  have h1 := toNat_formula_le b.protocol.txFeeFixed b.protocol.txFeePerByte len2
  rw [← f2] at h1
  have h2 := Nat.mul_le_mul_left b.protocol.txFeePerByte.toNat hle
  rw [Nat.mul_add] at h2
  unfold linearFee
  omega

/-- A 64-byte signature of zeros with the key of the golden file: enough to run the builder. -/
def sampleCrypto : Crypto := goldenCrypto (List.replicate 64 0)

/-- One input, one output, mainnet parameters. -/
def sampleBuilder (inp out : UInt64) (keys : List Bytes) : Builder :=
  AddOutputs (AddInputs (NewTxBuilder ⟨44, 155381, 16384, 1000000⟩ keys)
    [NewTxInput (asc "fcbc18c64cdf133f33dd319c5105dc7c4972f2d646ae276fbd00cf7f39f8c380".toList) 0 inp])
    [⟨.base MainNet goldenPayment goldenStake, out⟩]

/-- Fee paid and size of the transaction built from `sampleBuilder`. -/
def sampleRun (inp out : UInt64) (keys : List Bytes) (addr : Address) : Option (Nat × Nat) :=
  match Build sampleCrypto (AddChangeIfNeeded sampleCrypto (sampleBuilder inp out keys) addr) with
  | (.ok h, b) =>
    match bytes sampleCrypto (view b h) b.clock with
    | .ok bs => some ((view b h).body.fee.toNat, bs.length)
    | _ => none
  | _ => none

/-- **C20 is false even with one key and a base address**: when the change amount needs more bytes than the placeholder amount. With
mainnet parameters, one input of 4300167295 lovelace and one output of 5000000 lovelace the fee is 167877, while the
transaction of 288 bytes must pay at least 168053. -/
theorem C20_width_underpays :
    ∃ fee size, sampleRun 4300167295 5000000 [[]] (.base MainNet goldenPayment goldenStake) = some (fee, size) ∧
      fee < linearFee ⟨44, 155381, 16384, 1000000⟩ size := by
  refine ⟨(sampleRun 4300167295 5000000 [[]] (.base MainNet goldenPayment goldenStake)).get!.1, (sampleRun 4300167295 5000000 [[]] (.base MainNet goldenPayment goldenStake)).get!.2, ?_, ?_⟩ <;> decide +kernel

/-! ### C58: builders made from the same key slice -/

/-- **C58 is false**: two builders created with the same slice of keys, whose backing array has room for one more, share the next key:
`Sign(k0)` on the first followed by `Sign(k1)` on the second makes the *first* builder sign with `k1`. -/
theorem C58_builders_share_keys (keys spare : List Bytes) (x k0 k1 : Bytes) (s0 s1 : Nat) :
    let m := (KeyMem.shared (keys ++ x :: spare) keys.length).run [(0, k0, s0), (1, k1, s1)]
    m.keys 0 = keys ++ [k1] ∧ m.keys 1 = keys ++ [k1] := by
  simp only [KeyMem.Mem.run, KeyMem.shared, List.foldl_cons, List.foldl_nil]
  have e1 : KeyMem.Mem.sign ⟨[keys ++ x :: spare], fun _ => ⟨0, keys.length⟩⟩ s0 0 k0 =
      ⟨[(keys ++ x :: spare).set keys.length k0], fun j => if j = 0 then ⟨0, keys.length + 1⟩ else ⟨0, keys.length⟩⟩ := by
    simp [KeyMem.Mem.sign, KeyMem.Mem.array]
  rw [e1]
  have e2 : (keys ++ x :: spare).set keys.length k0 = keys ++ k0 :: spare := by simp
  rw [e2]
  have e3 : KeyMem.Mem.sign ⟨[keys ++ k0 :: spare], fun j => if j = 0 then ⟨0, keys.length + 1⟩ else ⟨0, keys.length⟩⟩ s1 1 k1 =
      ⟨[keys ++ k1 :: spare], fun j => if j = 1 then ⟨0, keys.length + 1⟩ else if j = 0 then ⟨0, keys.length + 1⟩ else ⟨0, keys.length⟩⟩ := by
    simp [KeyMem.Mem.sign, KeyMem.Mem.array]
  rw [e3]
  constructor <;> simp [KeyMem.Mem.keys, KeyMem.Mem.read, KeyMem.Mem.array, List.take_append, List.take_of_length_le]

/-- **C58 (partial).** If the slice given to `NewTxBuilder` fills its backing array (for instance a slice literal), any number of builders
made from it are independent: after any interleaving of `Sign` calls each has the initial keys followed by those given to
it, in order - so `TxBuilder.Sign` may be modelled on values. -/
theorem C58_builders_independent_partial (keys : List Bytes) (ops : List (Nat × Bytes × Nat)) (i : Nat) :
    ((KeyMem.shared keys keys.length).run ops).keys i = keys ++ (ops.filter (fun o => o.1 = i)).map (fun o => o.2.1) := by
  have gen : ∀ (ops : List (Nat × Bytes × Nat)) (m : KeyMem.Mem), KeyMem.Sep m →
      (m.run ops).keys i = m.keys i ++ (ops.filter (fun o => o.1 = i)).map (fun o => o.2.1) := by
    intro ops
    induction ops with
    | nil => intro m _; simp [KeyMem.Mem.run]
    | cons o ops ih =>
      intro m hm
      obtain ⟨h1, h2⟩ := KeyMem.sign_sep m hm o.2.2 o.1 o.2.1
      show ((m.sign o.2.2 o.1 o.2.1).run ops).keys i = _
      rw [ih _ h1, h2 i]
      by_cases c : o.1 = i
      · simp [c]
      · simp [c, Ne.symm c]
  rw [gen ops _ ⟨fun j => ⟨by simp [KeyMem.shared], by simp [KeyMem.shared, KeyMem.Mem.array]⟩,
    fun j l _ _ => by simp [KeyMem.shared, KeyMem.Mem.array]⟩]
  simp [KeyMem.shared, KeyMem.Mem.keys, KeyMem.Mem.read, KeyMem.Mem.array]

/-! ### C59: the signatures in the submitted bytes cover the submitted body -/

/-- **C59 (partial).** With deterministic metadata: the bytes of a transaction returned by `Build` consist of the array
head, a body item, and the rest; every witness is a pair of public key and signature by one of the signing keys on the hash of exactly
that body item. -/
theorem C59_submitted_body_is_signed_partial (C : Crypto) (hH : ∀ m, (C.blake256 m).length = 32) (b b' : Builder) (h : Handle)
    (e : Build C b = (.ok h, b')) (hd : Deterministic b.metadata) (hb : BodyFits (view b' h).body) (k : Nat) (bs : Bytes)
    (eb : bytes C (view b' h) k = .ok bs) :
    ∃ body rest x, bs = 0x84 :: (body ++ rest) ∧ parseFirst (body ++ rest) = some (x, rest) ∧
      All2 (fun (w : VKeyWitness) key => C.publicKey key = .ok w.vkey ∧ C.sign key (C.blake256 body) = .ok w.signature)
        (view b' h).witness b.xprvs := by
  have hm : (view b' h).metadata = b.metadata := by
    obtain ⟨body, bb, ws, _, _, _, h4, h5⟩ := build_ok C b b' h e
    rw [view_build b b' h body ws h4 h5]
  obtain ⟨body, rest, x, h1, _, h3, h4⟩ := C26_hash_is_hash_of_body C hH (view b' h) k k bs hb (by rw [hm]; exact hd) eb
  obtain ⟨hs, g1, g2⟩ := C24_signed_hash_is_txid C b b' h e hd k
  rw [h4] at g1
  injection g1 with g1
  subst g1
  exact ⟨body, rest, x, h1, h3, g2⟩

/-- **C59 is false** for map metadata: `Bytes` recomputes the auxiliary data hash, possibly with another iteration order than
`Build` used, and so changes the body after it was signed. -/
theorem C59_map_order_breaks_signature (C : Crypto) (hC : C.blake256 [0xa2, 1, 1, 2, 2] ≠ C.blake256 [0xa2, 2, 2, 1, 1])
    (hl : ∀ m, (C.blake256 m).length = 32) (key pk : Bytes) (hk : C.publicKey key = .ok pk) (hs : ∀ m, ∃ s, C.sign key m = .ok s)
    (p : Protocol) :
    ∃ (b b' : Builder) (h : Handle) (bs signed submitted rest : Bytes) (w : VKeyWitness),
      b = setMetadata (NewTxBuilder p [key]) (some twoOrders) ∧
      Build C b = (.ok h, b') ∧ bytes C (view b' h) b'.clock = .ok bs ∧ (view b' h).witness = [w] ∧
      C.sign key (C.blake256 signed) = .ok w.signature ∧
      bs = 0x84 :: (submitted ++ rest) ∧ (∃ x, parseFirst (submitted ++ rest) = some (x, rest)) ∧ signed ≠ submitted := by
  let body (i : Nat) : TxBody := ⟨[], [], 0, 0, C.blake256 (if i % 2 = 0 then [0xa2, 1, 1, 2, 2] else [0xa2, 2, 2, 1, 1])⟩
  obtain ⟨b0, hb0⟩ : ∃ b0, marshalBody (body 0) = .ok b0 := ⟨_, rfl⟩
  obtain ⟨b1, hb1⟩ : ∃ b1, marshalBody (body 1) = .ok b1 := ⟨_, rfl⟩
  obtain ⟨s, hsig⟩ := hs (C.blake256 b0)
  let B := setMetadata (NewTxBuilder p [key]) (some twoOrders)
  have hc : calcAux C (TxBuilder.tx B) 0 = .ok (body 0) := rfl
  have hh : Transaction.hash C (TxBuilder.tx B) B.clock = .ok (C.blake256 b0) := by
    show Transaction.hash C (TxBuilder.tx B) 0 = _
    unfold Transaction.hash; rw [hc]; simp only [Res.ok_bind]; rw [hb0]; rfl
  have hw : witnessesOf C (C.blake256 b0) B.xprvs = .ok [⟨pk, s⟩] := by
    show witnessesOf C (C.blake256 b0) [key] = _
    simp only [witnessesOf, witnessOf, hk, hsig, Res.ok_bind]; rfl
  have hB : Build C B = (.ok ⟨1, true, some twoOrders⟩,
      { B with body := body 0, clock := 1, wits := [[], [⟨pk, s⟩]], wit := 1 }) := by
    unfold Build
    have e2 : (afterAux C (TxBuilder.tx B) B.clock).body = body 0 := rfl
    rw [hh]
    simp only [e2]
    rw [hw]
    rfl
  have hfit : BodyFits (body 1) := ⟨by simp [body], by simp [body], by simp [body], by simp [body], by simp only [body, hl]; decide⟩
  have hp := body_enc (body 1) hfit b1 hb1
  obtain ⟨bs, hbs⟩ : ∃ bs, marshalTx ⟨body 1, [⟨pk, s⟩], true, some twoOrders⟩ 2 = .ok bs := by
    unfold marshalTx; rw [hb1]; exact ⟨_, rfl⟩
  have hbytes : bytes C (view { B with body := body 0, clock := 1, wits := [[], [⟨pk, s⟩]], wit := 1 } ⟨1, true, some twoOrders⟩) 1 = .ok bs := hbs
  obtain ⟨bb, mm, g1, g2, g3⟩ := marshalTx_parts _ _ _ hbs
  have : bb = b1 := by
    have : marshalBody (body 1) = .ok bb := g1
    rw [hb1] at this; injection this with this; exact this.symm
  subst this
  refine ⟨B, _, _, bs, b0, bb, marshalWitness [⟨pk, s⟩] ++ encBool true ++ mm, ⟨pk, s⟩, rfl, hB, hbytes, rfl, hsig, ?_, ⟨_, hp.parseFirst _⟩, ?_⟩
  · rw [g3]; simp
  · intro e
    subst e
    have h0 := body_enc (body 0) ⟨by simp [body], by simp [body], by simp [body], by simp [body], by simp only [body, hl]; decide⟩ b0 hb0
    have := h0.parse.symm.trans hp.parse
    have hne : ∀ m, C.blake256 m ≠ [] := fun m e => by have := hl m; rw [e] at this; cases this
    simp only [Option.some.injEq, bodyItem, body, hne, if_false] at this
    injection this with this
    simp at this
    exact hC this

end Cardano.Props
