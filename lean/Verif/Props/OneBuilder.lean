import Verif.Props.Rollback
/-!
# Property C152: the transactions of one builder exclude each other
-/
set_option autoImplicit false

namespace Cardano.Props
open Cbor TxSpec Transaction TxBuilder Addr Bip32 Spec
open Ledger (read refOf outOf Env UTxO)

/-- `Bytes` of a transaction obtained from the builder, now or earlier: `h` is what `Tx` or any `Build` so far has returned (in fact any number of a witness object, any
validity flag), with metadata that is always encoded to the same auxiliary data. -/
def TakenNow (C : Crypto) (b : Builder) (bs : Bytes) : Prop := ∃ h k, GoodMetadata h.metadata ∧ bytes C (view b h) k = .ok bs

/-- The transaction has sizes that Go and CBOR can hold. -/
structure HasSizes (b : Builder) : Prop where
  inputs : b.body.inputs.length < 2 ^ 63
  outputs : b.body.outputs.length < 2 ^ 63
  keys : b.xprvs.length < 2 ^ 63
  ids : ∀ i ∈ b.body.inputs, i.txHash.length < 2 ^ 63
  addrs : ∀ o ∈ b.body.outputs, AddressFits o.address

namespace OneBuilder

/-- What holds of every builder: the hash is a hash or missing, and all witness objects have keys and signatures of the usual lengths, at most one for each key. -/
structure Tidy (b : Builder) : Prop where
  aux : b.body.auxHash.length ≤ 32
  wits : ∀ ws ∈ b.wits, ws.length ≤ max 1 b.xprvs.length ∧ ∀ w ∈ ws, w.vkey.length = 32 ∧ w.signature.length = 64

theorem afterAux_aux (C : Crypto) (h256 : ∀ m, (C.blake256 m).length = 32) (t : Tx) (k : Nat) (h : t.body.auxHash.length ≤ 32) :
    (afterAux C t k).body.auxHash.length ≤ 32 := by
  unfold afterAux calcAux
  cases t.metadata with
  | none => exact h
  | some m =>
    dsimp only
    cases m.enc k with
    | ok x => exact (h256 x).le
    | err e => exact h
    | panic => exact h

theorem tidy_minFee (C : Crypto) (b : Builder) (h : Tidy b) : Tidy (MinFee C b).2 := by
  refine ⟨h.aux, ?_⟩
  intro ws hw
  have hw : ws ∈ (if (witAt b b.wit).length = 0 then b.wits.set b.wit [dummyWitness] else b.wits) := hw
  split at hw
  · rcases List.mem_or_eq_of_mem_set hw with hw | rfl
    · exact h.wits ws hw
    · refine ⟨Nat.le_max_left _ _, ?_⟩
      intro w hw
      rw [List.mem_singleton.1 hw]
      exact ⟨List.length_replicate, List.length_replicate⟩
  · exact h.wits ws hw

theorem tidy_step (C : Crypto) (h256 : ∀ m, (C.blake256 m).length = 32) (hpk : ∀ k pk, C.publicKey k = .ok pk → pk.length = 32)
    (hsg : ∀ k msg s, C.sign k msg = .ok s → s.length = 64) (b : Builder) (op : Op) (h : Tidy b) : Tidy (step C b op) := by
  cases op with
  | sign k =>
    refine ⟨h.aux, fun ws hw => ⟨(h.wits ws hw).1.trans ?_, (h.wits ws hw).2⟩⟩
    show _ ≤ max 1 (b.xprvs ++ [k]).length
    rw [List.length_append]
    omega
  | minFee => exact tidy_minFee C b h
  | addChange a => exact ⟨h.aux, (tidy_minFee C b h).wits⟩
  | build =>
    have ha : (afterAux C (tx b) b.clock).body.auxHash.length ≤ 32 := afterAux_aux C h256 _ _ h.aux
    show Tidy (Build C b).2
    unfold Build
    dsimp only
    split
    · exact ⟨ha, h.wits⟩
    · exact ⟨ha, h.wits⟩
    · split
      · exact ⟨ha, h.wits⟩
      · exact ⟨ha, h.wits⟩
      · rename_i ws hws
        refine ⟨ha, ?_⟩
        intro w hw
        rcases List.mem_append.1 hw with hw | hw
        · exact h.wits w hw
        · obtain ⟨h1, h2⟩ := witnessesOf_lengths C hpk hsg _ _ _ hws
          rw [List.mem_singleton.1 hw]
          exact ⟨by rw [h1]; exact Nat.le_max_right _ _, h2⟩
  | bytesOf hd => exact ⟨afterAux_aux C h256 _ _ h.aux, h.wits⟩
  | _ => exact ⟨h.aux, h.wits⟩

theorem tidy_run (C : Crypto) (h256 : ∀ m, (C.blake256 m).length = 32) (hpk : ∀ k pk, C.publicKey k = .ok pk → pk.length = 32)
    (hsg : ∀ k msg s, C.sign k msg = .ok s → s.length = 64) (ops : List Op) : ∀ b, Tidy b → Tidy (run C b ops) := by
  induction ops with
  | nil => exact fun b h => h
  | cons op ops ih => exact fun b h => ih _ (tidy_step C h256 hpk hsg b op h)

theorem tidy_new (p : Protocol) (ks : List Bytes) : Tidy (NewTxBuilder p ks) := by
  refine ⟨Nat.zero_le _, ?_⟩
  intro ws hw
  rw [List.mem_singleton.1 hw]
  exact ⟨Nat.zero_le _, nofun⟩

/-- What the ledger reads in bytes taken from a builder, if it can read them. -/
theorem taken_read (C : Crypto) (h256 : ∀ m, (C.blake256 m).length = 32) (b : Builder) (bs : Bytes) (ht : Tidy b) (hs : HasSizes b) (hy : TakenNow C b bs)
    (v : Ledger.TxView) (hv : read bs = some v) : v.inputs = b.body.inputs.map refOf := by
  obtain ⟨h, k, hg, eb⟩ := hy
  obtain ⟨m, x, hm, hx, -⟩ := goodMetadata_enc _ hg
  obtain ⟨body, e1, eb⟩ := bind_ok eb
  rw [calcAux_of C (view b h) m k (hm k)] at e1
  injection e1 with e1
  subst e1
  obtain ⟨bb, m', g1, g2, g3⟩ := marshalTx_parts _ _ _ eb
  have g2 : marshalMetadata h.metadata _ = .ok m' := g2
  rw [hm] at g2
  injection g2 with g2
  subst g2
  have hwf : WitnessFits (witAt b h.wit) := by
    unfold witAt
    rw [List.getD_eq_getElem?_getD]
    cases e : b.wits[h.wit]? with
    | none => exact ⟨by decide, nofun⟩
    | some ws =>
      obtain ⟨h1, h2⟩ := ht.wits ws (List.mem_of_getElem? e)
      have := hs.keys
      exact ⟨by show ws.length < _; omega, fun w hw => by have := h2 w hw; omega⟩
  have hbf : BodyFits { b.body with auxHash := auxOf C h.metadata b.body.auxHash m } := by
    refine ⟨hs.inputs, hs.outputs, hs.ids, hs.addrs, ?_⟩
    show (auxOf _ _ _ _).length < _
    have := ht.aux
    cases h.metadata with
    | none => show b.body.auxHash.length < _; omega
    | some d => show (C.blake256 m).length < _; rw [h256]; decide
  have hread := Ledger.read_bytes _ _ h.valid bb m x hbf hwf g1 hx
  have g3 : bs = 0x84 :: (bb ++ marshalWitness (witAt b h.wit) ++ encBool h.valid ++ m) := g3
  rw [← g3] at hread
  dsimp only at hread
  rw [hv] at hread
  obtain ⟨aux, -, rfl, -⟩ := Ledger.assemble_of _ _ _ _ _ _ _ _ hread.symm
  rfl

end OneBuilder
open OneBuilder

/-- The inputs at an earlier moment are the first inputs at a later one. -/
theorem earlier_inputs (C : Crypto) (b : Builder) (ops : List Op) (n n' : Nat) (h : n ≤ n') :
    ∃ l, (run C b (ops.take n')).body.inputs = (run C b (ops.take n)).body.inputs ++ l := by
  obtain ⟨d, rfl⟩ := Nat.exists_eq_add_of_le h
  refine ⟨((ops.drop n).take d).flatMap inputsOf, ?_⟩
  rw [List.take_add, (C29_history C _ b).1, (C29_history C _ b).1, List.flatMap_append, List.append_assoc]

theorem common_input (H : Hashes) (hH : H.Ok) (blake256 : Bytes → Bytes) (h256 : ∀ m, (blake256 m).length = 32)
    (p : Protocol) (ks : List Bytes) (ops : List Op) (n n' : Nat) (bs bs' : Bytes)
    (hs : HasSizes (run (packageCrypto H blake256) (NewTxBuilder p ks) (ops.take n))) (hs' : HasSizes (run (packageCrypto H blake256) (NewTxBuilder p ks) (ops.take n')))
    (hy : TakenNow (packageCrypto H blake256) (run (packageCrypto H blake256) (NewTxBuilder p ks) (ops.take n)) bs)
    (hy' : TakenNow (packageCrypto H blake256) (run (packageCrypto H blake256) (NewTxBuilder p ks) (ops.take n')) bs')
    (v v' : Ledger.TxView) (hv : read bs = some v) (hv' : read bs' = some v') (h0 : v.inputs ≠ []) (h0' : v'.inputs ≠ []) : ∃ r ∈ v.inputs, r ∈ v'.inputs := by
  have ht := fun l => tidy_run (packageCrypto H blake256) h256 (package_key_length H blake256) (package_sig_length H hH blake256) l _ (tidy_new p ks)
  have e := taken_read _ h256 _ bs (ht _) hs hy v hv
  have e' := taken_read _ h256 _ bs' (ht _) hs' hy' v' hv'
  rcases Nat.le_total n n' with h | h
  · obtain ⟨l, hl⟩ := earlier_inputs (packageCrypto H blake256) (NewTxBuilder p ks) ops n n' h
    rw [hl, List.map_append, ← e] at e'
    obtain ⟨r, hr⟩ := List.exists_mem_of_ne_nil _ h0
    exact ⟨r, hr, by rw [e']; exact List.mem_append_left _ hr⟩
  · obtain ⟨l, hl⟩ := earlier_inputs (packageCrypto H blake256) (NewTxBuilder p ks) ops n' n h
    rw [hl, List.map_append, ← e'] at e
    obtain ⟨r, hr⟩ := List.exists_mem_of_ne_nil _ h0'
    exact ⟨r, by rw [e]; exact List.mem_append_left _ hr, hr⟩

/-- **C152: of all transactions taken from one builder the ledger accepts one.** A builder is used for any calls; after `n` of them, and after `n'` of them (more or fewer),
the bytes of a transaction are taken. When the ledger has accepted the one, then after whatever other transactions it does not accept the other. (Ids are not used again.) -/
theorem C152_excluded (H : Hashes) (hH : H.Ok) (blake224 blake256 : Bytes → Bytes) (h256 : ∀ m, (blake256 m).length = 32)
    (p : Protocol) (ks : List Bytes) (ops : List Op) (n n' : Nat) (bs bs' : Bytes)
    (hs : HasSizes (run (packageCrypto H blake256) (NewTxBuilder p ks) (ops.take n))) (hs' : HasSizes (run (packageCrypto H blake256) (NewTxBuilder p ks) (ops.take n')))
    (hy : TakenNow (packageCrypto H blake256) (run (packageCrypto H blake256) (NewTxBuilder p ks) (ops.take n)) bs)
    (hy' : TakenNow (packageCrypto H blake256) (run (packageCrypto H blake256) (NewTxBuilder p ks) (ops.take n')) bs')
    (u : UTxO) (e e' : Env) (v : Ledger.TxView) (hv : read bs = some v) (ha : Ledger.Accepts (ledgerCrypto H blake224 blake256) e u v) (vs : List Ledger.TxView)
    (hid : ∀ r ∈ v.inputs, ∀ w ∈ v :: vs, r.1 ≠ blake256 w.body) :
    ¬ Ledger.Valid (ledgerCrypto H blake224 blake256) e' (afterAll (ledgerCrypto H blake224 blake256) (Ledger.apply (ledgerCrypto H blake224 blake256) u v) vs) bs' := by
  rintro ⟨v', hv', ha'⟩
  obtain ⟨r, h1, h2⟩ := common_input H hH blake256 h256 p ks ops n n' bs bs' hs hs' hy hy' v v' hv hv' ha.nonempty ha'.nonempty
  have h3 := ha'.exist r h2
  rw [spent_for_good (ledgerCrypto H blake224 blake256) u v vs r h1 (hid r h1)] at h3
  exact absurd h3 (by decide)

/-- **C152: on a chain that is rolled back.** However the chain is extended and rolled back, at most one of the transactions taken from one builder is on it, at one place. -/
theorem C152_chain (H : Hashes) (hH : H.Ok) (blake224 blake256 : Bytes → Bytes) (h256 : ∀ m, (blake256 m).length = 32)
    (p : Protocol) (ks : List Bytes) (ops : List Op) (n n' : Nat) (bs bs' : Bytes)
    (hs : HasSizes (run (packageCrypto H blake256) (NewTxBuilder p ks) (ops.take n))) (hs' : HasSizes (run (packageCrypto H blake256) (NewTxBuilder p ks) (ops.take n')))
    (hy : TakenNow (packageCrypto H blake256) (run (packageCrypto H blake256) (NewTxBuilder p ks) (ops.take n)) bs)
    (hy' : TakenNow (packageCrypto H blake256) (run (packageCrypto H blake256) (NewTxBuilder p ks) (ops.take n')) bs')
    (u0 : UTxO) (c : List Ledger.TxView) (hc : OnChain (ledgerCrypto H blake224 blake256) u0 c) (hid : NoReuse (ledgerCrypto H blake224 blake256) c)
    (k k' : Nat) (v v' : Ledger.TxView) (hk : c[k]? = some v) (hk' : c[k']? = some v') (hr : read bs = some v) (hr' : read bs' = some v') : k = k' := by
  have hne : ∀ w ∈ c, w.inputs ≠ [] := by
    intro w hw
    obtain ⟨c1, c2, rfl⟩ := List.append_of_mem hw
    obtain ⟨e, ha⟩ := onChain_accepted _ u0 _ hc c1 w c2 rfl
    exact ha.nonempty
  obtain ⟨r, h1, h2⟩ := common_input H hH blake256 h256 p ks ops n n' bs bs' hs hs' hy hy' v v' hr hr' (hne v (List.mem_of_getElem? hk)) (hne v' (List.mem_of_getElem? hk'))
  have hpw := List.pairwise_iff_getElem.1 (onChain_spent_once _ u0 c hc hid)
  obtain ⟨l, e⟩ := List.getElem?_eq_some_iff.1 hk
  obtain ⟨l', e'⟩ := List.getElem?_eq_some_iff.1 hk'
  rcases Nat.lt_trichotomy k k' with h | h | h
  · exact absurd (by rw [e']; exact h2) (hpw k k' l l' h r (by rw [e]; exact h1))
  · exact h
  · exact absurd (by rw [e]; exact h1) (hpw k' k l' l h r (by rw [e']; exact h2))

/-! ### Example -/

/-- The calls of the payment of C131, `Build` twice. -/
def twiceBuilt : List Op :=
  [.addInputs (apartSession 7).inputs, .addOutputs (apartSession 7).outputs, .setTTL 0, .setMetadata none, .addChange sampleAddr, .build, .build]

/-- C152: bytes taken after the first `Build` and again, through what it had returned, after the second. Both are accepted by themselves; once one is accepted, the other is
not. -/
example (H : Hashes) (hH : H.Ok) (blake224 : Bytes → Bytes) : ∃ (bs : Bytes) (v : Ledger.TxView) (u : UTxO) (e : Env),
    TakenNow (packageCrypto H apartHash) (run (packageCrypto H apartHash) (NewTxBuilder ⟨44, 155381, 16384, 1000000⟩ [sampleKey]) (twiceBuilt.take 6)) bs ∧
    TakenNow (packageCrypto H apartHash) (run (packageCrypto H apartHash) (NewTxBuilder ⟨44, 155381, 16384, 1000000⟩ [sampleKey]) (twiceBuilt.take 7)) bs ∧
    read bs = some v ∧ Ledger.Accepts (ledgerCrypto H blake224 apartHash) e u v ∧
    ¬ Ledger.Valid (ledgerCrypto H blake224 apartHash) e (Ledger.apply (ledgerCrypto H blake224 apartHash) u v) bs := by
  obtain ⟨_, pk, -, s2, -⟩ := C37_signature_valid H hH sampleKey sampleKey_ok.1 sampleKey_ok.2 []
  have p1 := packageCrypto_publicKey H apartHash sampleKey sampleKey_ok.1 sampleKey_ok.2
  rw [s2] at p1
  obtain ⟨bs, v, m1, i1, k1, a1⟩ := apart_made H hH blake224 pk p1 7 (.inl rfl) (fun _ => some (0x61 :: blake224 pk, 10000000)) rfl
  obtain ⟨hf, hy, hr⟩ := m1
  have hin := (finish_read H hH apartHash (fun m => List.length_replicate) _ bs hf hy v hr).1
  obtain ⟨h, b', k, e1, e2⟩ := id hy
  obtain ⟨h', b'', f1, f2, f3⟩ := C25_build_idempotent _ _ b' h e1 (fun _ e => nomatch (show none = some _ from e))
  have r6 : run (packageCrypto H apartHash) (NewTxBuilder ⟨44, 155381, 16384, 1000000⟩ [sampleKey]) (twiceBuilt.take 6) = b' := congrArg Prod.snd e1
  have r7 : run (packageCrypto H apartHash) (NewTxBuilder ⟨44, 155381, 16384, 1000000⟩ [sampleKey]) (twiceBuilt.take 7) = b'' := by
    have : run (packageCrypto H apartHash) (NewTxBuilder ⟨44, 155381, 16384, 1000000⟩ [sampleKey]) (twiceBuilt.take 7) =
      (Build (packageCrypto H apartHash) (run (packageCrypto H apartHash) (NewTxBuilder ⟨44, 155381, 16384, 1000000⟩ [sampleKey]) (twiceBuilt.take 6))).2 := rfl
    rw [this, r6, f1]
  have hm : GoodMetadata h.metadata := by
    obtain ⟨_, _, _, -, -, -, rfl, -⟩ := build_ok _ _ _ _ e1
    exact .inl rfl
  have t6 : TakenNow (packageCrypto H apartHash) b' bs := ⟨h, k, hm, e2⟩
  have t7 : TakenNow (packageCrypto H apartHash) b'' bs := ⟨h, k, hm, by rw [f3]; exact e2⟩
  have k6 := C25_build_keeps (packageCrypto H apartHash) (AddChangeIfNeeded (packageCrypto H apartHash) (apartSession 7).builder (apartSession 7).change)
  rw [e1] at k6
  obtain ⟨x1, x2, -, -, x3, -⟩ := k6
  have z6 : HasSizes b' := ⟨by rw [x1]; exact hf.inputs, by rw [x2]; exact hf.outputs, by rw [x3]; exact hf.keys, by rw [x1]; exact hf.ids, by rw [x2]; exact hf.addrs⟩
  have k7 := C25_build_keeps (packageCrypto H apartHash) b'
  rw [f1] at k7
  obtain ⟨y1, y2, -, -, y3, -⟩ := k7
  have z7 : HasSizes b'' := ⟨by rw [y1]; exact z6.inputs, by rw [y2]; exact z6.outputs, by rw [y3]; exact z6.keys, by rw [y1]; exact z6.ids, by rw [y2]; exact z6.addrs⟩
  refine ⟨bs, v, _, _, by rw [r6]; exact t6, by rw [r7]; exact t7, hr, a1, ?_⟩
  refine C152_excluded H hH blake224 apartHash (fun m => List.length_replicate) ⟨44, 155381, 16384, 1000000⟩ [sampleKey] twiceBuilt 6 7 bs bs (by rw [r6]; exact z6)
    (by rw [r7]; exact z7) (by rw [r6]; exact t6) (by rw [r7]; exact t7) _ _ _ v hr a1 [] ?_
  intro r hrv w hw
  rw [List.mem_singleton.1 hw]
  rw [hin, i1] at hrv
  obtain rfl := List.mem_singleton.1 hrv
  show List.replicate 32 7 ≠ apartHash v.body
  rw [k1]
  decide

end Cardano.Props
