import Verif.Props.Independent
import Verif.Props.Enough
/-!
# Property C143: emptying a wallet
-/
set_option autoImplicit false

namespace Cardano.Props
open Cbor TxSpec Transaction TxBuilder Addr Bip32 Spec
open Ledger (read refOf outOf witOf Env UTxO OutputAddress)

/-- The calls that send everything away: no outputs are added, and the destination is given to `AddChangeIfNeeded`. -/
def sweep (p : Protocol) (key : Bytes) (batch : List TxInput) (dest : Address) : Session := ⟨p, [key], batch, [], 0, none, dest⟩

/-- Unspent outputs that can be sent away together: they pay for the fee of `atMost` bytes and leave an output that is not too small, the transaction is not too large, and the
sum is not within 200000 above `2 ^ 32` (C77). -/
structure Worth (p : Protocol) (batch : List TxInput) : Prop where
  some : batch ≠ []
  fits : sumIn batch < 2 ^ 64
  size : atMost batch.length 1 1 1 ≤ p.maxTxSize.toNat
  cost : p.txFeeFixed.toNat + p.txFeePerByte.toNat * atMost batch.length 1 1 1 + p.minUTXOValue.toNat ≤ sumIn batch
  low : 265536 ≤ sumIn batch
  width : sumIn batch < 2 ^ 32 ∨ 2 ^ 32 + 200000 ≤ sumIn batch

/-- A transaction that sends the batch away: the calls succeed, the ledger accepts the bytes now, and everything but the fee goes to the destination. -/
structure Swept (H : Hashes) (blake224 blake256 : Bytes → Bytes) (p : Protocol) (key : Bytes) (dest : Address) (network slot : Nat) (u : UTxO) (batch : List TxInput)
    (t : Nat × Bytes × Ledger.TxView) : Prop where
  yields : (sweep p key batch dest).Yields (packageCrypto H blake256) t.1 t.2.1
  seen : read t.2.1 = some t.2.2
  accepted : Ledger.Accepts (ledgerCrypto H blake224 blake256) (envOf p network slot) u t.2.2
  inputs : t.2.2.inputs = batch.map refOf
  outputs : t.2.2.outputs = [(Addr.bytes dest, sumIn batch - t.1)]
  fee : t.1 + p.minUTXOValue.toNat ≤ sumIn batch
  bound : t.1 ≤ p.txFeeFixed.toNat + p.txFeePerByte.toNat * atMost batch.length 1 1 1

/-- **C143, one transaction.** -/
theorem C143_sweep (H : Hashes) (hH : H.Ok) (blake224 blake256 : Bytes → Bytes) (h256 : ∀ m, (blake256 m).length = 32)
    (p : Protocol) (key pk : Bytes) (dest : Address) (network slot : Nat) (u : UTxO) (batch : List TxInput)
    (hk : key.length = 96 ∧ leNat (key.take 32) < 2 ^ 255) (hpk : (packageCrypto H blake256).publicKey key = .ok pk)
    (hu : Agrees blake224 u [pk] batch) (hdis : (batch.map refOf).Nodup) (hd : Receives network (Addr.bytes dest)) (hds : (Addr.bytes dest).length ≤ 57)
    (hfix : 65536 ≤ p.txFeeFixed.toNat ∧ p.txFeeFixed.toNat < 2 ^ 31) (hper : p.txFeePerByte.toNat < 2 ^ 16)
    (hmax : p.maxTxSize.toNat ≤ 16384) (hmin : 0 < p.minUTXOValue.toNat) (hw : Worth p batch) :
    ∃ t, Swept H blake224 blake256 p key dest network slot u batch t := by
  have hso : sumOut (sweep p key batch dest).outputs = 0 := rfl
  have hsi : sumIn (sweep p key batch dest).inputs = sumIn batch := rfl
  obtain ⟨fee, bs, v, h1, h2, h3, h4, h5, h6, -⟩ := C136_enough H hH blake224 blake256 h256 (sweep p key batch dest) key pk u network slot encNil rfl hk hpk hu hw.some hdis
    (fun o ho => by cases ho) hd hds (.inl rfl) (fun _ => rfl) (fun h => absurd rfl h) hfix hper hmax hmin hw.fits hw.size
    (by rw [hso, hsi]; have := hw.cost; show 0 + (p.txFeeFixed.toNat + p.txFeePerByte.toNat * atMost batch.length 1 1 1) + p.minUTXOValue.toNat ≤ _; omega)
    (by rw [hso, hsi]; have := hw.low; omega) (by rw [hso, hsi]; have := hw.width; omega)
  have h6 : fee ≤ p.txFeeFixed.toNat + p.txFeePerByte.toNat * atMost batch.length 1 1 1 := h6
  have := hw.cost
  exact ⟨(fee, bs, v), h1, h2, h3, h4, h5, by show fee + _ ≤ _; omega, h6⟩

theorem apply_inTurn (LC : Ledger.Crypto) (e : Env) (l : List (Bytes × Ledger.TxView)) : ∀ u u' : UTxO, (∀ q ∈ l, read q.1 = some q.2) →
    InTurn LC e u (l.map (·.1)) u' → u' = afterAll LC u (l.map (·.2)) := by
  induction l with
  | nil => intro u u' _ h; cases h; rfl
  | cons q l ih =>
    intro u u' hr h
    cases h with
    | cons _ _ _ _ v hv ha h =>
      rw [hr q List.mem_cons_self] at hv
      obtain rfl := Option.some.inj hv
      exact ih _ _ (fun x hx => hr x (List.mem_cons_of_mem _ hx)) h

theorem afterAll_other (C : Ledger.Crypto) (vs : List Ledger.TxView) (r : Ledger.Ref) (hid : ∀ w ∈ vs, r.1 ≠ C.hash256 w.body) (hin : ∀ w ∈ vs, r ∉ w.inputs) :
    ∀ u : UTxO, afterAll C u vs r = u r := by
  induction vs with
  | nil => intro u; rfl
  | cons w vs ih =>
    intro u
    refine (ih (fun x hx => hid x (List.mem_cons_of_mem _ hx)) (fun x hx => hin x (List.mem_cons_of_mem _ hx)) _).trans ?_
    unfold Ledger.apply
    rw [if_neg (hid w List.mem_cons_self), if_neg (hin w List.mem_cons_self)]

theorem afterAll_made (C : Ledger.Crypto) (vs : List Ledger.TxView) (v : Ledger.TxView) (n : Nat) (hv : v ∈ vs)
    (hsame : ∀ w ∈ vs, C.hash256 v.body = C.hash256 w.body → w.outputs = v.outputs) (hin : ∀ w ∈ vs, (C.hash256 v.body, n) ∉ w.inputs) :
    ∀ u : UTxO, afterAll C u vs (C.hash256 v.body, n) = v.outputs[n]? := by
  have key : ∀ (vs : List Ledger.TxView) (u : UTxO), (∀ w ∈ vs, C.hash256 v.body = C.hash256 w.body → w.outputs = v.outputs) → (∀ w ∈ vs, (C.hash256 v.body, n) ∉ w.inputs) →
      (v ∈ vs ∨ u (C.hash256 v.body, n) = v.outputs[n]?) → afterAll C u vs (C.hash256 v.body, n) = v.outputs[n]? := by
    intro vs
    induction vs with
    | nil =>
      intro u _ _ h
      rcases h with h | h
      · cases h
      · exact h
    | cons w vs ih =>
      intro u hs hi h
      refine ih _ (fun x hx => hs x (List.mem_cons_of_mem _ hx)) (fun x hx => hi x (List.mem_cons_of_mem _ hx)) ?_
      by_cases hw : C.hash256 v.body = C.hash256 w.body
      · right
        unfold Ledger.apply
        rw [if_pos hw, hs w List.mem_cons_self hw]
      · rcases h with h | h
        · rcases List.mem_cons.1 h with rfl | h
          · exact absurd rfl hw
          · exact .inl h
        · right
          unfold Ledger.apply
          rw [if_neg hw, if_neg (hi w List.mem_cons_self), h]
  intro u
  exact key vs u hsame hin (.inl hv)

/-- **C143, any number.** The unspent outputs of a key are divided into batches. Each is sent away as above, the transactions being built beforehand. Then, if ids are not used
again, the ledger accepts all of them, in whatever order they arrive; afterwards none of the outputs is left, the destination has one output from each batch, nothing else has
changed, and what the destination has received and the fees add up to what was there. -/
theorem C143_batches (H : Hashes) (hH : H.Ok) (blake224 blake256 : Bytes → Bytes) (h256 : ∀ m, (blake256 m).length = 32)
    (p : Protocol) (key pk : Bytes) (dest : Address) (network slot : Nat) (u : UTxO) (batches : List (List TxInput))
    (hk : key.length = 96 ∧ leNat (key.take 32) < 2 ^ 255) (hpk : (packageCrypto H blake256).publicKey key = .ok pk)
    (hu : Agrees blake224 u [pk] batches.flatten) (hdis : (batches.flatten.map refOf).Nodup)
    (hd : Receives network (Addr.bytes dest)) (hds : (Addr.bytes dest).length ≤ 57)
    (hfix : 65536 ≤ p.txFeeFixed.toNat ∧ p.txFeeFixed.toNat < 2 ^ 31) (hper : p.txFeePerByte.toNat < 2 ^ 16)
    (hmax : p.maxTxSize.toNat ≤ 16384) (hmin : 0 < p.minUTXOValue.toNat) (hw : ∀ b ∈ batches, Worth p b) :
    ∃ l : List (List TxInput × Nat × Bytes × Ledger.TxView), l.map (·.1) = batches ∧ (∀ q ∈ l, Swept H blake224 blake256 p key dest network slot u q.1 q.2) ∧
      (l.map fun q => (q.2.2.2.outputs.map (·.2)).sum).sum + (l.map (·.2.1)).sum = sumIn batches.flatten ∧
      ((∀ i ∈ batches.flatten, ∀ q ∈ l, i.txHash ≠ blake256 q.2.2.2.body) →
        (∀ q ∈ l, ∀ q' ∈ l, blake256 q.2.2.2.body = blake256 q'.2.2.2.body → q.2.2.2.body = q'.2.2.2.body) →
        ∃ u' : UTxO, (∀ order : List Bytes, order.Perm (l.map (·.2.2.1)) → InTurn (ledgerCrypto H blake224 blake256) (envOf p network slot) u order u') ∧
          (∀ i ∈ batches.flatten, u' (i.txHash, i.index.toNat) = none) ∧
          (∀ q ∈ l, ∀ n, u' (blake256 q.2.2.2.body, n) = q.2.2.2.outputs[n]?) ∧
          ∀ r : Ledger.Ref, (∀ q ∈ l, r.1 ≠ blake256 q.2.2.2.body) → (∀ i ∈ batches.flatten, r ≠ (i.txHash, i.index.toNat)) → u' r = u r) := by
  have hex : ∀ bs : List (List TxInput), (∀ b ∈ bs, b ∈ batches) →
      ∃ l : List (List TxInput × Nat × Bytes × Ledger.TxView), l.map (·.1) = bs ∧ ∀ q ∈ l, Swept H blake224 blake256 p key dest network slot u q.1 q.2 := by
    intro bs
    induction bs with
    | nil => intro _; exact ⟨[], rfl, fun _ h => by cases h⟩
    | cons b bs ih =>
      intro h
      obtain ⟨l, h2, h3⟩ := ih (fun x hx => h x (List.mem_cons_of_mem _ hx))
      have hb := h b List.mem_cons_self
      have hsub : ∀ i ∈ b, i ∈ batches.flatten := fun i hi => List.mem_flatten.2 ⟨b, hb, hi⟩
      obtain ⟨t, h1⟩ := C143_sweep H hH blake224 blake256 h256 p key pk dest network slot u b hk hpk ⟨fun i hi => hu.ids i (hsub i hi), fun i hi => hu.amounts i (hsub i hi)⟩
        (by
          rw [List.map_flatten] at hdis
          exact (List.nodup_flatten.1 hdis).1 _ (List.mem_map_of_mem hb))
        hd hds hfix hper hmax hmin (hw b hb)
      refine ⟨(b, t) :: l, by rw [List.map_cons, h2], ?_⟩
      intro q hq
      rcases List.mem_cons.1 hq with rfl | hq
      · exact h1
      · exact h3 q hq
  obtain ⟨l, hl, hS⟩ := hex batches (fun _ h => h)
  refine ⟨l, hl, hS, ?_, ?_⟩
  · rw [← hl]
    clear hl hex
    induction l with
    | nil => rfl
    | cons q l ih =>
      have h1 := hS q List.mem_cons_self
      have hf := h1.fee
      have := ih (fun x hx => hS x (List.mem_cons_of_mem _ hx))
      rw [List.map_cons, List.sum_cons, List.map_cons, List.sum_cons, List.map_cons, List.flatten_cons, sumIn_append, h1.outputs, ← this]
      show (sumIn q.1 - q.2.1 + 0) + _ + _ = _
      omega
  · intro hnew hno
    have hmem : ∀ q ∈ l, ∀ i ∈ q.1, i ∈ batches.flatten := fun q hq i hi => List.mem_flatten.2 ⟨q.1, by rw [← hl]; exact List.mem_map_of_mem hq, hi⟩
    have hbody : ∀ q ∈ l, (AddChangeIfNeeded (packageCrypto H blake256) (sweep p key q.1 dest).builder dest).body.inputs = q.1 := fun q _ => by
      rw [addChange_eq]
      simp [sweep, Session.builder, setMetadata, SetTTL, AddOutputs, AddInputs, NewTxBuilder]
    have hmade : ∀ q ∈ l, Made H blake256 (AddChangeIfNeeded (packageCrypto H blake256) (sweep p key q.1 dest).builder dest) q.2.2.1 q.2.2.2 := by
      intro q hq
      have hs := hS q hq
      obtain ⟨tx, hy, -⟩ := hs.yields
      obtain ⟨h, b', k, e1, e2, e3⟩ := hy.run
      have hlen : q.1.length < 2 ^ 20 := by
        have := (hw q.1 (by rw [← hl]; exact List.mem_map_of_mem hq)).size
        unfold atMost at this
        omega
      have eo : ∃ x, (AddChangeIfNeeded (packageCrypto H blake256) (sweep p key q.1 dest).builder dest).body.outputs = [⟨dest, x⟩] := ⟨_, rfl⟩
      obtain ⟨x, eo⟩ := eo
      refine ⟨⟨by rw [hbody q hq]; omega, by rw [eo]; exact (by decide : 1 < 2 ^ 63), (by decide : 1 < 2 ^ 63), ?_, ?_, (by decide : 0 < 2 ^ 63), .inl rfl⟩,
        ⟨h, b', k, e1, by rw [e2]; exact e3⟩, hs.seen⟩
      · rw [hbody q hq]
        intro i hi
        have := hu.ids i (hmem q hq i hi)
        omega
      · rw [eo]
        intro o ho
        rw [List.mem_singleton.1 ho]
        exact outputAddress_fits dest hd.1
    have hpw : l.Pairwise fun a b => ∀ i ∈ a.1, ∀ j ∈ b.1, ¬ (i.txHash = j.txHash ∧ i.index = j.index) := by
      have h := hdis
      rw [List.map_flatten] at h
      have h := (List.nodup_flatten.1 h).2
      rw [← hl, List.map_map, List.pairwise_map] at h
      refine h.imp ?_
      intro a b hab i hi j hj he
      refine hab (List.mem_map_of_mem (f := refOf) hi) ?_
      have : refOf i = refOf j := by unfold refOf; rw [he.1, he.2]
      rw [this]
      exact List.mem_map_of_mem hj
    let txs := l.map fun q => ((AddChangeIfNeeded (packageCrypto H blake256) (sweep p key q.1 dest).builder dest), q.2.2)
    obtain ⟨u', h1⟩ := C131_any_order H hH blake224 blake256 h256 txs (envOf p network slot) u
      (by intro x hx; obtain ⟨q, hq, rfl⟩ := List.mem_map.1 hx; exact hmade q hq)
      (by intro x hx; obtain ⟨q, hq, rfl⟩ := List.mem_map.1 hx; exact (hS q hq).accepted)
      (by
        rw [List.pairwise_map]
        refine hpw.imp_of_mem ?_
        intro a b ha hb h
        dsimp only
        rw [hbody a ha, hbody b hb]
        exact h)
      (by
        intro x hx y hy i hi
        obtain ⟨q, hq, rfl⟩ := List.mem_map.1 hx
        obtain ⟨q', hq', rfl⟩ := List.mem_map.1 hy
        dsimp only at hi
        rw [hbody q hq] at hi
        exact hnew i (hmem q hq i hi) q' hq')
      (by
        intro x hx y hy
        obtain ⟨q, hq, rfl⟩ := List.mem_map.1 hx
        obtain ⟨q', hq', rfl⟩ := List.mem_map.1 hy
        exact hno q hq q' hq')
    have hmap : txs.map (·.2.1) = l.map (·.2.2.1) := by rw [List.map_map]; rfl
    rw [hmap] at h1
    have hu' : u' = afterAll (ledgerCrypto H blake224 blake256) u (l.map (·.2.2.2)) := by
      have := apply_inTurn (ledgerCrypto H blake224 blake256) (envOf p network slot) (l.map (·.2.2)) u u'
        (by intro x hx; obtain ⟨q, hq, rfl⟩ := List.mem_map.1 hx; exact (hS q hq).seen) (by rw [List.map_map]; exact h1 _ (List.Perm.refl _))
      rw [List.map_map] at this
      exact this
    have hins : ∀ q ∈ l, ∀ r, r ∈ q.2.2.2.inputs ↔ ∃ i ∈ q.1, r = (i.txHash, i.index.toNat) := by
      intro q hq r
      rw [(hS q hq).inputs, List.mem_map]
      exact ⟨fun ⟨i, h, e⟩ => ⟨i, h, e.symm⟩, fun ⟨i, h, e⟩ => ⟨i, h, e.symm⟩⟩
    refine ⟨u', h1, ?_, ?_, ?_⟩
    · intro i hi
      rw [hu']
      obtain ⟨b, hb, hib⟩ := List.mem_flatten.1 hi
      rw [← hl] at hb
      obtain ⟨q, hq, rfl⟩ := List.mem_map.1 hb
      obtain ⟨l1, l2, rfl⟩ := List.append_of_mem hq
      rw [List.map_append, List.map_cons]
      unfold afterAll
      rw [List.foldl_append, List.foldl_cons]
      refine spent_for_good (ledgerCrypto H blake224 blake256) _ q.2.2.2 (l2.map (·.2.2.2)) _ ((hins q hq _).2 ⟨i, hib, rfl⟩) ?_
      intro w hw'
      rw [← List.map_cons (f := fun q : List TxInput × Nat × Bytes × Ledger.TxView => q.2.2.2)] at hw'
      obtain ⟨q', hq', rfl⟩ := List.mem_map.1 hw'
      exact hnew i hi q' (List.mem_append_right _ hq')
    · intro q hq n
      rw [hu']
      refine afterAll_made (ledgerCrypto H blake224 blake256) _ q.2.2.2 n (List.mem_map_of_mem (f := fun q : List TxInput × Nat × Bytes × Ledger.TxView => q.2.2.2) hq) ?_ ?_ u
      · intro w hw' he
        obtain ⟨q', hq', rfl⟩ := List.mem_map.1 hw'
        have hb := hno q hq q' hq' he
        obtain ⟨⟨x, hx⟩, -⟩ := finish_witnesses H hH blake256 h256 _ _ (hmade q hq).fits (hmade q hq).built _ (hmade q hq).seen
        exact (read_same_body q.2.2.1 q'.2.2.1 q.2.2.2 q'.2.2.2 (hS q hq).seen (hS q' hq').seen x hx hb.symm).2.1
      · intro w hw' hi
        obtain ⟨q', hq', rfl⟩ := List.mem_map.1 hw'
        obtain ⟨i, hi, e⟩ := (hins q' hq' _).1 hi
        exact hnew i (hmem q' hq' i hi) q hq (congrArg Prod.fst e).symm
    · intro r h2 h3
      rw [hu']
      refine afterAll_other (ledgerCrypto H blake224 blake256) _ r ?_ ?_ u
      · intro w hw'
        obtain ⟨q', hq', rfl⟩ := List.mem_map.1 hw'
        exact h2 q' hq'
      · intro w hw' hi
        obtain ⟨q', hq', rfl⟩ := List.mem_map.1 hw'
        obtain ⟨i, hi, e⟩ := (hins q' hq' _).1 hi
        exact h3 i (hmem q' hq' i hi) e

/-! ### Example -/

/-- The batches of the example: two outputs of one transaction, and one of another. -/
def sweepBatches : List (List TxInput) :=
  [[⟨List.replicate 32 7, 0, 10000000⟩, ⟨List.replicate 32 7, 1, 20000000⟩], [⟨List.replicate 32 8, 0, 5000000000⟩]]

def sweepAmount (r : Ledger.Ref) : Nat := if r.1 = List.replicate 32 8 then 5000000000 else if r.2 = 0 then 10000000 else 20000000

/-- C143: the two batches, with the parameters of the main network. (For the conditions on ids see the example of C131.) -/
example (H : Hashes) (hH : H.Ok) (blake224 blake256 : Bytes → Bytes) (h256 : ∀ m, (blake256 m).length = 32) :
    ∃ (pk : Bytes) (u : UTxO) (l : List (List TxInput × Nat × Bytes × Ledger.TxView)), l.map (·.1) = sweepBatches ∧
      (∀ q ∈ l, Swept H blake224 blake256 ⟨44, 155381, 16384, 1000000⟩ sampleKey sampleAddr 1 0 u q.1 q.2) ∧
      (packageCrypto H blake256).publicKey sampleKey = .ok pk ∧ u (List.replicate 32 8, 0) = some (0x61 :: blake224 pk, 5000000000) := by
  obtain ⟨_, pk, -, s2, -⟩ := C37_signature_valid H hH sampleKey sampleKey_ok.1 sampleKey_ok.2 []
  have p1 := packageCrypto_publicKey H blake256 sampleKey sampleKey_ok.1 sampleKey_ok.2
  rw [s2] at p1
  let u : UTxO := fun r => some (0x61 :: blake224 pk, sweepAmount r)
  obtain ⟨l, h1, h2, -⟩ := C143_batches H hH blake224 blake256 h256 ⟨44, 155381, 16384, 1000000⟩ sampleKey pk sampleAddr 1 0 u sweepBatches sampleKey_ok p1
    ⟨by decide, by
      intro i hi
      have hp : PaysTo blake224 (0x61 :: blake224 pk) pk := ⟨0x61, [], by rw [List.append_nil], by decide⟩
      have hi : i ∈ [(⟨List.replicate 32 7, 0, 10000000⟩ : TxInput), ⟨List.replicate 32 7, 1, 20000000⟩, ⟨List.replicate 32 8, 0, 5000000000⟩] := hi
      simp only [List.mem_cons, List.not_mem_nil, or_false] at hi
      rcases hi with rfl | rfl | rfl <;> exact ⟨0x61 :: blake224 pk, congrArg (fun n => some (0x61 :: blake224 pk, n)) (show sweepAmount (refOf _) = _ by decide), pk, List.mem_singleton.2 rfl, hp⟩⟩
    (by decide) ⟨by decide +kernel, _, _, rfl, by decide +kernel⟩ (by decide +kernel) (by decide) (by decide) (by decide) (by decide)
    (by
      intro b hb
      simp only [sweepBatches, List.mem_cons, List.not_mem_nil, or_false] at hb
      rcases hb with rfl | rfl <;> exact ⟨by decide, by decide, by decide, by decide, by decide, by decide⟩)
  exact ⟨pk, u, l, h1, h2, p1, rfl⟩

end Cardano.Props
