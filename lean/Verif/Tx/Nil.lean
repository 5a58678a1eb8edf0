import Verif.Tx.Missing
/-!
# Transactions with nil pointers and nil slices

`Tx.Body`, `Tx.Witness` and the elements of `Inputs`, `Outputs` and `Keys` are pointers, and all fields are exported: `AddInputs(nil)`, `&tx.TxInput{}`, `tx.Tx{}` and
`tb.Tx().Witness = nil` compile. This is `Tx/Model.lean` again with everything that can be nil. The encoder (external, from its documentation) writes null for a nil pointer, for
a nil slice that is not omitted, and for a nil interface. `agree` below: where nothing is nil it is the same.
-/
set_option autoImplicit false

namespace Cardano.Nil
open Cbor

/-- tx_input_output.go:10-16 `TxInput`. -/
structure Input where
  txHash : Option Bytes
  index : UInt16
  amount : UInt64

/-- tx_witness_set.go:21-25 `VKeyWitness`. -/
structure VKey where
  vkey : Option Bytes
  signature : Option Bytes

/-- tx_body.go:10-16 `TxBody`: slices of pointers. `AuxiliaryDataHash` is omitted when nil or empty. -/
structure Body where
  inputs : Option (List (Option Input))
  outputs : Option (List (Option Missing.Output))
  fee : UInt64
  ttl : UInt32
  auxHash : Bytes

/-- tx.go:12-18 `Tx`. A witness set with a nil slice of keys is written like one without keys (`omitempty`). -/
structure Tx where
  body : Option Body
  witness : Option (List (Option VKey))
  valid : Bool
  metadata : Option Metadata

/-- A slice of bytes as the encoder writes it. -/
def encSlice : Option Bytes → Bytes
  | none => encNil
  | some b => encBytes b

/-- tx_input_output.go:29-40 `MarshalCBOR`; not called for a nil pointer. -/
def marshalInput : Option Input → Bytes
  | none => encNil
  | some i => encArray [encSlice i.txHash, encUint (UInt64.ofNat i.index.toNat)]

/-- `cbor.Marshal` of a `*TxOutput` (tx_input_output.go:42-46). -/
def marshalOutput : Option Missing.Output → Res Bytes
  | none => .ok encNil
  | some o => Missing.marshalOutput o

/-- The field `Inputs`. -/
def marshalInputs : Option (List (Option Input)) → Bytes
  | none => encNil
  | some l => encArray (l.map marshalInput)

/-- The field `Outputs`. -/
def marshalOutputs : Option (List (Option Missing.Output)) → Res Bytes
  | none => .ok encNil
  | some l => do
    let outs ← Transaction.collect (l.map marshalOutput)
    return encArray outs

/-- `cbor.Marshal` of a `*TxBody` (tx_body.go:10-16). -/
def marshalBody : Option Body → Res Bytes
  | none => .ok encNil
  | some b => do
    let outs ← marshalOutputs b.outputs
    return encMap ([(encUint 0, marshalInputs b.inputs), (encUint 1, outs), (encUint 2, encUint b.fee)] ++
      (if b.ttl = 0 then [] else [(encUint 3, encUint (UInt64.ofNat b.ttl.toNat))]) ++
      (if b.auxHash.length = 0 then [] else [(encUint 7, encBytes b.auxHash)]))

/-- `cbor.Marshal` of a `*VKeyWitness`. -/
def marshalVKey : Option VKey → Bytes
  | none => encNil
  | some w => encArray [encSlice w.vkey, encSlice w.signature]

/-- `cbor.Marshal` of a `*Witness` (tx_witness_set.go:3-5). -/
def marshalWitness : Option (List (Option VKey)) → Bytes
  | none => encNil
  | some ws => encMap (if ws.length = 0 then [] else [(encUint 0, encArray (ws.map marshalVKey))])

/-- `cbor.Marshal(t)` (tx.go:12-18). -/
def marshalTx (t : Tx) (k : Nat) : Res Bytes := do
  let b ← marshalBody t.body
  let m ← Transaction.marshalMetadata t.metadata k
  return encArray [b, marshalWitness t.witness, encBool t.valid, m]

variable (C : Crypto)

/-- tx.go:83-93 `CalculateAuxiliaryDataHash`: with metadata, `t.Body.AuxiliaryDataHash` is assigned, which panics if there is no body. -/
def calcAux (t : Tx) (k : Nat) : Res Tx :=
  match t.metadata with
  | none => .ok t
  | some m =>
    match m.enc k with
    | .ok mdBytes =>
      match t.body with
      | none => .panic
      | some b => .ok { t with body := some { b with auxHash := C.blake256 mdBytes } }
    | .err _ => .err "cannot serialize metadata"
    | .panic => .panic

/-- tx.go:30-36 `Bytes`. -/
def bytes (t : Tx) (k : Nat) : Res Bytes := do
  let t ← calcAux C t k
  marshalTx t (k + 1)

/-- tx.go:48-60 `Hash`. -/
def hash (t : Tx) (k : Nat) : Res Bytes := do
  let t ← calcAux C t k
  let txBody ← marshalBody t.body
  return C.blake256 txBody

/-- tx.go:64-76 `Fee`. -/
def fee (l : LinearFee) (t : Tx) (k : Nat) : Res UInt64 := do
  let t ← calcAux C t k
  let txCbor ← marshalTx t (k + 1)
  return l.txFeeFixed + l.txFeePerByte * UInt64.ofNat txCbor.length

/-- `append(s, l...)` where `s` may be nil. -/
def append {α : Type} : Option (List α) → List α → Option (List α)
  | none, [] => none
  | none, l => some l
  | some s, l => some (s ++ l)

/-- tx.go:96-100 `AddInputs` (also tx_builder.go:119-121). -/
def AddInputs (t : Tx) (l : List (Option Input)) : Res Tx :=
  match t.body with
  | none => .panic
  | some b => .ok { t with body := some { b with inputs := append b.inputs l } }

/-- tx.go:103-107 `AddOutputs` (also tx_builder.go:124-126). -/
def AddOutputs (t : Tx) (l : List (Option Missing.Output)) : Res Tx :=
  match t.body with
  | none => .panic
  | some b => .ok { t with body := some { b with outputs := append b.outputs l } }

/-- tx.go:79-81 `SetFee`. -/
def SetFee (t : Tx) (fee : UInt64) : Res Tx :=
  match t.body with
  | none => .panic
  | some b => .ok { t with body := some { b with fee := fee } }

/-- tx_builder.go:69-78 `getTotalInputOutputs`: `inp.Amount` panics for a nil pointer. -/
def totalIn : List (Option Input) → UInt64 → Res UInt64
  | [], a => .ok a
  | none :: _, _ => .panic
  | some i :: l, a => totalIn l (a + i.amount)

/-- tx_builder.go:69-78 `getTotalInputOutputs`. -/
def totalOut : List (Option Missing.Output) → UInt64 → Res UInt64
  | [], a => .ok a
  | none :: _, _ => .panic
  | some o :: l, a => totalOut l (a + o.amount)

/-- `x, _ = f()` and `f()` with the error ignored: `d` when there is an error. -/
def orElse {α : Type} (d : α) : Res α → Res α
  | .ok a => .ok a
  | .err _ => .ok d
  | .panic => .panic

/-- The placeholder witness of tx_builder.go:95-98. -/
def dummy : VKey := ⟨some (List.replicate 32 0), some (List.replicate 64 0)⟩

/-- tx_builder.go:104-109: the placeholder for the change. -/
def withChange (t : Tx) (totalI totalO : UInt64) : Res Tx :=
  if totalI ≠ totalO then AddOutputs t [some ⟨some TxBuilder.innerAddr, totalI - totalO - 200000⟩] else .ok t

/-- tx_builder.go:110-114: the two passes. -/
def feePasses (l : LinearFee) (t : Tx) (k : Nat) : Res UInt64 := do
  let fee1 ← orElse 0 (fee C l t k)
  let t' ← orElse t (calcAux C t k)
  let t'' ← SetFee t' fee1
  orElse 0 (fee C l t'' (k + 2))

/-- tx_builder.go:81-117 `MinFee`: the fee and the transaction afterwards, whose witness set has got the placeholder. -/
def MinFee (p : Protocol) (t : Tx) (k : Nat) : Res (UInt64 × Tx) :=
  -- tx_builder.go:82-92
  match t.body with
  | none => .panic
  | some b =>
    let t0 : Tx := ⟨some ⟨b.inputs, b.outputs, b.fee, b.ttl, []⟩, t.witness, true, t.metadata⟩
    -- tx_builder.go:93
    orElse t0 (calcAux C t0 k) >>= fun t1 =>
    -- tx_builder.go:94-100
    match t.witness with
    | none => .panic
    | some ws =>
      let ws' := if ws.length = 0 then ws ++ [some dummy] else ws
      -- tx_builder.go:102-114
      totalIn (b.inputs.getD []) 0 >>= fun totalI =>
      totalOut (b.outputs.getD []) 0 >>= fun totalO =>
      withChange { t1 with witness := some ws' } totalI totalO >>= fun t3 =>
      feePasses C ⟨p.txFeePerByte, p.txFeeFixed⟩ t3 (k + 1) >>= fun fee =>
      .ok (fee, { t with witness := some ws' })

/-- tx_builder.go:50-62 `AddChangeIfNeeded`. -/
def AddChangeIfNeeded (p : Protocol) (addr : Option Address) (t : Tx) (k : Nat) : Res Tx := do
  let (f, t) ← MinFee C p t k
  let t ← SetFee t f
  match t.body with
  | none => .panic
  | some b => do
    let totalI ← totalIn (b.inputs.getD []) 0
    let totalO ← totalOut (b.outputs.getD []) 0
    AddOutputs t [some ⟨addr, totalI - totalO - b.fee⟩]

/-- tx_builder.go:23-42 `Build`: the transaction that is returned. -/
def Build (xprvs : List Bytes) (t : Tx) (k : Nat) : Res Tx := do
  let h ← hash C t k
  let t ← calcAux C t k
  let ws ← TxBuilder.witnessesOf C h xprvs
  return { t with witness := some (ws.map fun w => some ⟨some w.vkey, some w.signature⟩) }

/-! ### Where nothing is nil -/

def Input.of (i : TxInput) : Input := ⟨some i.txHash, i.index, i.amount⟩
def VKey.of (w : VKeyWitness) : VKey := ⟨some w.vkey, some w.signature⟩
def Body.of (b : TxBody) : Body :=
  ⟨some (b.inputs.map fun i => some (Input.of i)), some (b.outputs.map fun o => some (Missing.Output.of o)), b.fee, b.ttl, b.auxHash⟩
def Tx.of (t : Cardano.Tx) : Tx := ⟨some (Body.of t.body), some (t.witness.map fun w => some (VKey.of w)), t.valid, t.metadata⟩

theorem marshalBody_of (b : TxBody) : marshalBody (some (Body.of b)) = Transaction.marshalBody b := by
  have h1 : (b.inputs.map fun i => some (Input.of i)).map marshalInput = b.inputs.map Transaction.marshalInput := by
    rw [List.map_map]; rfl
  have h2 : (b.outputs.map fun o => some (Missing.Output.of o)).map marshalOutput = b.outputs.map Transaction.marshalOutput := by
    rw [List.map_map]; rfl
  unfold marshalBody Transaction.marshalBody Body.of marshalOutputs marshalInputs
  simp only [h1, h2]
  cases Transaction.collect (b.outputs.map Transaction.marshalOutput) <;> rfl

theorem marshalWitness_of (ws : List VKeyWitness) : marshalWitness (some (ws.map fun w => some (VKey.of w))) = Transaction.marshalWitness ws := by
  have h1 : (ws.map fun w => some (VKey.of w)).map marshalVKey = ws.map Transaction.marshalVKey := by
    rw [List.map_map]; rfl
  unfold marshalWitness Transaction.marshalWitness
  simp only [h1, List.length_map]

theorem marshalTx_of (t : Cardano.Tx) (k : Nat) : marshalTx (Tx.of t) k = Transaction.marshalTx t k := by
  unfold marshalTx Transaction.marshalTx Tx.of
  simp only [marshalBody_of, marshalWitness_of]

theorem calcAux_of (t : Cardano.Tx) (k : Nat) : calcAux C (Tx.of t) k = Missing.mapOk (fun b => Tx.of { t with body := b }) (Transaction.calcAux C t k) := by
  unfold calcAux Transaction.calcAux Tx.of
  cases hm : t.metadata with
  | none => simp only [Missing.mapOk]
  | some m => simp only; cases m.enc k <;> rfl

theorem bytes_of (t : Cardano.Tx) (k : Nat) : bytes C (Tx.of t) k = Transaction.bytes C t k := by
  unfold bytes Transaction.bytes
  rw [calcAux_of]
  cases Transaction.calcAux C t k with
  | ok b => exact marshalTx_of _ _
  | err m => rfl
  | panic => rfl

theorem hash_of (t : Cardano.Tx) (k : Nat) : hash C (Tx.of t) k = Transaction.hash C t k := by
  unfold hash Transaction.hash
  rw [calcAux_of]
  cases Transaction.calcAux C t k with
  | ok b => simp only [Missing.mapOk, Res.ok_bind]
            show (marshalBody (some (Body.of b)) >>= _) = _
            rw [marshalBody_of]
  | err m => rfl
  | panic => rfl

theorem fee_of (l : LinearFee) (t : Cardano.Tx) (k : Nat) : fee C l (Tx.of t) k = Transaction.fee C l t k := by
  unfold fee Transaction.fee
  rw [calcAux_of]
  cases Transaction.calcAux C t k with
  | ok b => simp only [Missing.mapOk, Res.ok_bind, marshalTx_of]
  | err m => rfl
  | panic => rfl

theorem totalIn_of (l : List TxInput) (a : UInt64) : totalIn (l.map fun i => some (Input.of i)) a = .ok (l.foldl (fun a i => a + i.amount) a) := by
  induction l generalizing a with
  | nil => rfl
  | cons i l ih => exact ih _

theorem totalOut_of (l : List TxOutput) (a : UInt64) :
    totalOut (l.map fun o => some (Missing.Output.of o)) a = .ok (l.foldl (fun a o => a + o.amount) a) := by
  induction l generalizing a with
  | nil => rfl
  | cons i l ih => exact ih _

/-- The metadata encoder does not panic. -/
def Calm (md : Option Metadata) : Prop := ∀ m, md = some m → ∀ k, m.enc k ≠ .panic

theorem calcAux_calm (t : Cardano.Tx) (h : Calm t.metadata) (k : Nat) : Transaction.calcAux C t k ≠ .panic := by
  unfold Transaction.calcAux
  cases hm : t.metadata with
  | none => simp
  | some m =>
    simp only
    have := h m hm k
    cases e : m.enc k <;> simp_all

theorem orElse_calcAux (t : Cardano.Tx) (h : Calm t.metadata) (k : Nat) : orElse (Tx.of t) (calcAux C (Tx.of t) k) = .ok (Tx.of (Transaction.afterAux C t k)) := by
  rw [calcAux_of]
  unfold Transaction.afterAux
  have := calcAux_calm C t h k
  cases e : Transaction.calcAux C t k with
  | ok b => rfl
  | err m => rfl
  | panic => exact absurd e this

theorem collect_calm (l : List TxOutput) : Transaction.collect (l.map Transaction.marshalOutput) ≠ .panic := by
  induction l with
  | nil => simp [Transaction.collect]
  | cons o l ih =>
    intro h
    simp only [List.map_cons, Transaction.collect, Transaction.marshalOutput] at h
    cases ha : Transaction.marshalAddress o.address with
    | panic => cases o with | mk a n => cases a <;> cases ha
    | err m => rw [ha] at h; cases h
    | ok b =>
      rw [ha] at h
      simp only [Res.ok_bind] at h
      cases hc : Transaction.collect (l.map Transaction.marshalOutput) with
      | panic => exact ih hc
      | err m => rw [hc] at h; cases h
      | ok bs => rw [hc] at h; cases h

theorem fee_calm (l : LinearFee) (t : Cardano.Tx) (h : Calm t.metadata) (k : Nat) : Transaction.fee C l t k ≠ .panic := by
  intro e
  unfold Transaction.fee at e
  cases hc : Transaction.calcAux C t k with
  | panic => exact calcAux_calm C t h k hc
  | err m => rw [hc] at e; cases e
  | ok b =>
    rw [hc] at e
    simp only [Res.ok_bind, Transaction.marshalTx, Transaction.marshalBody] at e
    cases hb : Transaction.collect (b.outputs.map Transaction.marshalOutput) with
    | panic => exact collect_calm _ hb
    | err m => rw [hb] at e; cases e
    | ok outs =>
      rw [hb] at e
      cases hm : Transaction.marshalMetadata t.metadata (k + 1) with
      | panic =>
        unfold Transaction.marshalMetadata at hm
        split at hm
        · cases hm
        · next m e1 => exact h m e1 _ hm
      | err m => simp only [hm] at e; cases e
      | ok m => simp only [hm] at e; cases e

theorem orElse_fee (l : LinearFee) (t : Cardano.Tx) (h : Calm t.metadata) (k : Nat) :
    orElse 0 (fee C l (Tx.of t) k) = .ok (Transaction.orZero (Transaction.fee C l t k)) := by
  rw [fee_of]
  have := fee_calm C l t h k
  cases e : Transaction.fee C l t k with
  | ok b => rfl
  | err m => rfl
  | panic => exact absurd e this

theorem afterAux_metadata (t : Cardano.Tx) (k : Nat) : (Transaction.afterAux C t k).metadata = t.metadata := by
  unfold Transaction.afterAux; split <;> rfl

theorem withChange_of (t : Cardano.Tx) (x y : UInt64) : withChange (Tx.of t) x y =
    .ok (Tx.of (if x ≠ y then { t with body := { t.body with outputs := t.body.outputs ++ [⟨TxBuilder.innerAddr, x - y - 200000⟩] } } else t)) := by
  unfold withChange
  generalize TxBuilder.innerAddr = ia
  generalize x - y - 200000 = n
  split
  · simp only [AddOutputs, Tx.of, Body.of, append, List.map_append, List.map_cons, List.map_nil, Missing.Output.of]
  · rfl

theorem feePasses_of (l : LinearFee) (t : Cardano.Tx) (h : Calm t.metadata) (k : Nat) :
    feePasses C l (Tx.of t) k = .ok (TxBuilder.feePasses C l t k) := by
  unfold feePasses
  rw [orElse_fee C _ t h, Res.ok_bind, orElse_calcAux C t h, Res.ok_bind]
  have e5 : ∀ (t : Cardano.Tx) f, SetFee (Tx.of t) f = .ok (Tx.of { t with body := { t.body with fee := f } }) := fun _ _ => rfl
  rw [e5, Res.ok_bind, orElse_fee C _ _ (by rw [afterAux_metadata]; exact h)]
  rfl

theorem witness_of (ws : List VKeyWitness) : (if (ws.map fun w => some (VKey.of w)).length = 0 then (ws.map fun w => some (VKey.of w)) ++ [some dummy] else ws.map fun w => some (VKey.of w)) =
    (if ws.length = 0 then ws ++ [TxBuilder.dummyWitness] else ws).map fun w => some (VKey.of w) := by
  cases ws with
  | nil => rfl
  | cons w ws => simp

theorem afterAux_witness (t : Cardano.Tx) (k : Nat) : (Transaction.afterAux C t k).witness = t.witness := by
  unfold Transaction.afterAux; split <;> rfl

/-- `MinFee` where nothing is nil. -/
theorem MinFee_of (b : Cardano.Builder) (h : Calm b.metadata) (hw : b.wit < b.wits.length) :
    MinFee C b.protocol (Tx.of (TxBuilder.tx b)) b.clock = .ok ((TxBuilder.MinFee C b).1, Tx.of (TxBuilder.tx (TxBuilder.MinFee C b).2)) := by
  obtain ⟨t0, ht0⟩ : ∃ t0 : Cardano.Tx, t0 = ⟨⟨b.body.inputs, b.body.outputs, b.body.fee, b.body.ttl, []⟩, TxBuilder.witAt b b.wit, true, b.metadata⟩ := ⟨_, rfl⟩
  obtain ⟨ws, hws⟩ : ∃ ws, ws = TxBuilder.witAt b b.wit := ⟨_, rfl⟩
  have hc : Calm t0.metadata := by rw [ht0]; exact h
  have e1 : MinFee C b.protocol (Tx.of (TxBuilder.tx b)) b.clock =
      (orElse (Tx.of t0) (calcAux C (Tx.of t0) b.clock) >>= fun t1 =>
      totalIn (b.body.inputs.map fun i => some (Input.of i)) 0 >>= fun totalI =>
      totalOut (b.body.outputs.map fun o => some (Missing.Output.of o)) 0 >>= fun totalO =>
      withChange { t1 with witness := some (if (ws.map fun w => some (VKey.of w)).length = 0 then (ws.map fun w => some (VKey.of w)) ++ [some dummy]
        else ws.map fun w => some (VKey.of w)) } totalI totalO >>= fun t3 =>
      feePasses C ⟨b.protocol.txFeePerByte, b.protocol.txFeeFixed⟩ t3 (b.clock + 1) >>= fun fee =>
      .ok (fee, { Tx.of (TxBuilder.tx b) with witness := some (if (ws.map fun w => some (VKey.of w)).length = 0 then (ws.map fun w => some (VKey.of w)) ++ [some dummy]
        else ws.map fun w => some (VKey.of w)) })) := by
    rw [ht0, hws]; rfl
  have e2 : ∀ t1 : Cardano.Tx, t1.witness = ws →
      ({ Tx.of t1 with witness := some ((if ws.length = 0 then ws ++ [TxBuilder.dummyWitness] else ws).map fun w => some (VKey.of w)) } : Tx) =
      Tx.of (if t1.witness.length = 0 then { t1 with witness := t1.witness ++ [TxBuilder.dummyWitness] } else t1) := by
    intro t1 ht
    rw [← ht]
    split <;> rfl
  have hw0 : (Transaction.afterAux C t0 b.clock).witness = ws := by rw [afterAux_witness, ht0, hws]
  have hm0 : (Transaction.afterAux C t0 b.clock).metadata = b.metadata := by rw [afterAux_metadata, ht0]
  rw [e1, orElse_calcAux C t0 hc, Res.ok_bind, totalIn_of, Res.ok_bind, totalOut_of, Res.ok_bind, witness_of, e2 _ hw0, withChange_of, Res.ok_bind,
    feePasses_of C _ _ (by repeat' split
                           all_goals (simp only [hm0]; exact h)), Res.ok_bind]
  have e3 : TxBuilder.tx (TxBuilder.MinFee C b).2 = { TxBuilder.tx b with witness := if ws.length = 0 then ws ++ [TxBuilder.dummyWitness] else ws } := by
    have : TxBuilder.witAt (TxBuilder.MinFee C b).2 b.wit = if ws.length = 0 then ws ++ [TxBuilder.dummyWitness] else ws := by
      rw [hws]
      unfold TxBuilder.MinFee TxBuilder.witAt
      dsimp only
      split
      · next h0 =>
        have : b.wits.getD b.wit [] = [] := List.length_eq_zero_iff.1 h0
        rw [this]
        simp [hw]
      · rfl
    show (⟨b.body, TxBuilder.witAt (TxBuilder.MinFee C b).2 b.wit, b.valid, b.metadata⟩ : Cardano.Tx) = _
    rw [this]; rfl
  rw [e3, ht0]
  rfl

end Cardano.Nil
