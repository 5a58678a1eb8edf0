import Verif.Props.Independent
import Verif.Props.Asked
/-!
# Property C142: transactions on a chain that is rolled back
-/
set_option autoImplicit false

namespace Cardano.Props
open Cbor TxSpec Transaction TxBuilder Addr Bip32 Spec
open Ledger (read refOf outOf witOf Env UTxO OutputAddress)

/-- The transactions on the chain, the first one first: the ledger accepts one more, under whatever parameters and in whatever slot, or goes back to an earlier point
(the node switches to another fork). -/
inductive OnChain (LC : Ledger.Crypto) (u0 : UTxO) : List Ledger.TxView → Prop where
  | start : OnChain LC u0 []
  | accept (c : List Ledger.TxView) (e : Env) (v : Ledger.TxView) : OnChain LC u0 c → Ledger.Accepts LC e (afterAll LC u0 c) v → OnChain LC u0 (c ++ [v])
  | rollback (c : List Ledger.TxView) (n : Nat) : OnChain LC u0 c → OnChain LC u0 (c.take n)

/-- Ids are not used again: nothing on the chain makes the outputs that it, or an earlier one, has spent. -/
def NoReuse (LC : Ledger.Crypto) (c : List Ledger.TxView) : Prop :=
  ∀ c1 w c2, c = c1 ++ w :: c2 → ∀ r ∈ w.inputs, ∀ x ∈ w :: c2, r.1 ≠ LC.hash256 x.body

theorem onChain_accepted (LC : Ledger.Crypto) (u0 : UTxO) (c : List Ledger.TxView) (h : OnChain LC u0 c) :
    ∀ c1 w c2, c = c1 ++ w :: c2 → ∃ e, Ledger.Accepts LC e (afterAll LC u0 c1) w := by
  induction h with
  | start => intro c1 w c2 h; cases c1 <;> cases h
  | accept c e v _ ha ih =>
    intro c1 w c2 h
    rcases List.eq_nil_or_concat c2 with rfl | ⟨c3, y, rfl⟩
    · obtain ⟨h1, h2⟩ := List.append_inj' h rfl
      obtain rfl := (List.cons.inj h2).1
      exact ⟨e, by rw [← h1]; exact ha⟩
    · rw [List.concat_eq_append, ← List.cons_append, ← List.append_assoc] at h
      exact ih c1 w c3 (List.append_inj' h rfl).1
  | rollback c n _ ih =>
    intro c1 w c2 h
    refine ih c1 w (c2 ++ c.drop n) ?_
    rw [← List.cons_append, ← List.append_assoc, ← h, List.take_append_drop]

/-- No output is spent by two transactions on the chain, whatever was rolled back before. -/
theorem onChain_spent_once (LC : Ledger.Crypto) (u0 : UTxO) (c : List Ledger.TxView) (h : OnChain LC u0 c) (hid : NoReuse LC c) :
    c.Pairwise fun w x => ∀ r ∈ w.inputs, r ∉ x.inputs := by
  rw [List.pairwise_iff_forall_sublist]
  intro w x hs r hw hx
  obtain ⟨c1, c2, rfl, h1, h2⟩ := List.cons_sublist_iff.1 hs
  obtain ⟨c3, d, rfl⟩ : ∃ c3 d, c1 = c3 ++ w :: d := List.append_of_mem h1
  obtain ⟨d1, d2, rfl⟩ := List.append_of_mem (List.singleton_sublist.1 h2)
  obtain ⟨e, ha⟩ := onChain_accepted LC u0 _ h (c3 ++ w :: (d ++ d1)) x d2 (by simp [List.append_assoc])
  have h1 := ha.exist r hx
  have : afterAll LC u0 (c3 ++ w :: (d ++ d1)) = afterAll LC (Ledger.apply LC (afterAll LC u0 c3) w) (d ++ d1) := by
    unfold afterAll
    rw [List.foldl_append, List.foldl_cons]
  rw [this, spent_for_good LC _ w _ r hw] at h1
  · exact absurd h1 (by decide)
  · intro y hy
    refine hid c3 w (d ++ (d1 ++ x :: d2)) (by simp [List.append_assoc]) r hw y ?_
    rcases List.mem_cons.1 hy with rfl | hy
    · exact List.mem_cons_self
    · refine List.mem_cons_of_mem _ ?_
      rcases List.mem_append.1 hy with hy | hy
      · exact List.mem_append_left _ hy
      · exact List.mem_append_right _ (List.mem_append_left _ hy)

/-- **C142, once.** A user makes any number of transactions that all have one input in common: the same payment tried again with another fee, time to live, change or
metadata. On a chain that is extended and rolled back in any way, at every moment at most one of them is there, and at one place. -/
theorem C142_once (H : Hashes) (hH : H.Ok) (blake224 blake256 : Bytes → Bytes) (h256 : ∀ m, (blake256 m).length = 32)
    (i : TxInput) (tries : List (Builder × Bytes))
    (ht : ∀ p ∈ tries, BuilderFits p.1 ∧ Finishes (packageCrypto H blake256) p.1 p.2 ∧ ∃ j ∈ p.1.body.inputs, j.txHash = i.txHash ∧ j.index = i.index)
    (u0 : UTxO) (c : List Ledger.TxView) (hc : OnChain (ledgerCrypto H blake224 blake256) u0 c) (hid : NoReuse (ledgerCrypto H blake224 blake256) c)
    (p p' : Builder × Bytes) (hp : p ∈ tries) (hp' : p' ∈ tries) (k k' : Nat) (v v' : Ledger.TxView) (hk : c[k]? = some v) (hk' : c[k']? = some v')
    (hr : read p.2 = some v) (hr' : read p'.2 = some v') : k = k' := by
  have hin : ∀ p ∈ tries, ∀ v, read p.2 = some v → refOf i ∈ v.inputs := by
    intro p hp v hv
    obtain ⟨hf, hy, j, hj, h1, h2⟩ := ht p hp
    obtain ⟨r1, -⟩ := finish_read H hH blake256 h256 p.1 p.2 hf hy v hv
    have : refOf i = refOf j := by unfold refOf; rw [h1, h2]
    rw [this, r1]
    exact List.mem_map_of_mem hj
  have hpw := List.pairwise_iff_getElem.1 (onChain_spent_once _ u0 c hc hid)
  obtain ⟨l, e⟩ := List.getElem?_eq_some_iff.1 hk
  obtain ⟨l', e'⟩ := List.getElem?_eq_some_iff.1 hk'
  rcases Nat.lt_trichotomy k k' with h | h | h
  · exact absurd (by rw [e']; exact hin p' hp' v' hr') (hpw k k' l l' h (refOf i) (by rw [e]; exact hin p hp v hr))
  · exact h
  · exact absurd (by rw [e]; exact hin p hp v hr) (hpw k' k l' l h (refOf i) (by rw [e']; exact hin p' hp' v' hr'))

/-- **C142, again.** Bytes that the ledger accepted once are accepted again after a rollback, under the same parameters, exactly if they have not expired and nothing
else has spent the inputs: every input is unspent. (An id stands for the same outputs before and after.) -/
theorem C142_again (H : Hashes) (hH : H.Ok) (blake224 blake256 : Bytes → Bytes) (h256 : ∀ m, (blake256 m).length = 32)
    (s : Session) (fee : Nat) (bs : Bytes) (hf : s.Fits) (hy : s.Yields (packageCrypto H blake256) fee bs) (e : Env) (slot : Nat) (u u' : UTxO)
    (hsame : ∀ r o o', u r = some o → u' r = some o' → o' = o) (hv : Ledger.Valid (ledgerCrypto H blake224 blake256) e u bs) :
    Ledger.Valid (ledgerCrypto H blake224 blake256) { e with slot := slot } u' bs ↔
      (s.ttl = 0 ∨ slot < s.ttl.toNat) ∧ ∀ i ∈ s.inputs, (u' (i.txHash, i.index.toNat)).isSome := by
  obtain ⟨v, hr, ha⟩ := hv
  obtain ⟨r1, -, -, -, -, r5⟩ := session_read H hH blake256 h256 s fee bs hf hy v hr
  constructor
  · rintro ⟨v', hr', ha'⟩
    rw [hr] at hr'
    obtain rfl := Option.some.inj hr'
    refine ⟨?_, ?_⟩
    · by_cases h0 : s.ttl = 0
      · exact .inl h0
      · rw [if_neg h0] at r5
        exact .inr (ha'.ttl _ r5)
    · intro i hi
      exact ha'.exist (refOf i) (by rw [r1]; exact List.mem_map_of_mem hi)
  · rintro ⟨h1, h2⟩
    refine ⟨v, hr, accepts_congr _ _ u u' v ?_ ⟨?_, ha.nonempty, ha.exist, ha.fee, ha.conserved, ha.minimum, ha.network, ha.size, ha.signatures, ha.unlocked, ha.aux⟩⟩
    · intro r hrv
      have hu := ha.exist r hrv
      rw [r1] at hrv
      obtain ⟨i, hi, rfl⟩ := List.mem_map.1 hrv
      obtain ⟨o, ho⟩ := Option.isSome_iff_exists.1 hu
      obtain ⟨o', ho'⟩ := Option.isSome_iff_exists.1 (h2 i hi)
      have ho' : u' (refOf i) = some o' := ho'
      rw [ho, ho', hsame _ o o' ho ho']
    · intro n he
      rw [r5] at he
      split at he
      · cases he
      · rename_i h0
        have := Option.some.inj he
        rcases h1 with h1 | h1
        · exact absurd h1 h0
        · show slot < n
          omega

/-- **C142, what builds on it.** A transaction that spends an output of one that was rolled back is not accepted while that one is missing from the chain. -/
theorem C142_follow_up (H : Hashes) (hH : H.Ok) (blake224 blake256 : Bytes → Bytes) (h256 : ∀ m, (blake256 m).length = 32)
    (b : Builder) (bs : Bytes) (hf : BuilderFits b) (hy : Finishes (packageCrypto H blake256) b bs) (i : TxInput) (hi : i ∈ b.body.inputs)
    (u0 : UTxO) (c : List Ledger.TxView) (h0 : u0 (i.txHash, i.index.toNat) = none) (hc : ∀ w ∈ c, i.txHash ≠ blake256 w.body) (e : Env) :
    ¬ Ledger.Valid (ledgerCrypto H blake224 blake256) e (afterAll (ledgerCrypto H blake224 blake256) u0 c) bs := by
  rintro ⟨v, hv, ha⟩
  obtain ⟨r1, -⟩ := finish_read H hH blake256 h256 b bs hf hy v hv
  have h1 := ha.exist (refOf i) (by rw [r1]; exact List.mem_map_of_mem hi)
  rw [afterAll_none (ledgerCrypto H blake224 blake256) c (refOf i) hc u0 h0] at h1
  exact absurd h1 (by decide)

/-! ### Example -/

/-- C142: the payment of C131 is accepted, rolled back, and accepted again from the same bytes; it is on the chain once, and nothing on the chain makes what was spent. -/
example (H : Hashes) (hH : H.Ok) (blake224 : Bytes → Bytes) :
    ∃ (b : Builder) (bs : Bytes) (v : Ledger.TxView) (u0 : UTxO) (e : Env), BuilderFits b ∧ Finishes (packageCrypto H apartHash) b bs ∧ read bs = some v ∧
      Ledger.Accepts (ledgerCrypto H blake224 apartHash) e u0 v ∧ OnChain (ledgerCrypto H blake224 apartHash) u0 (([v] : List Ledger.TxView).take 0 ++ [v]) ∧
      NoReuse (ledgerCrypto H blake224 apartHash) [v] := by
  obtain ⟨_, pk, -, s2, -⟩ := C37_signature_valid H hH sampleKey sampleKey_ok.1 sampleKey_ok.2 []
  have p1 := packageCrypto_publicKey H apartHash sampleKey sampleKey_ok.1 sampleKey_ok.2
  rw [s2] at p1
  obtain ⟨b, bs, v, m1, i1, k1, a1⟩ := apart_sample H hH blake224 pk p1 7 (.inl rfl) (fun _ => some (0x61 :: blake224 pk, 10000000)) rfl
  obtain ⟨hf, hy, hr⟩ := m1
  have hin := (finish_read H hH apartHash (fun m => List.length_replicate) b bs hf hy v hr).1
  refine ⟨b, bs, v, _, _, hf, hy, hr, a1, .accept _ _ v (.rollback _ 0 (.accept [] _ v .start a1)) a1, ?_⟩
  intro c1 w c2 h r hw x hx
  have h1 : c1 = [] ∧ v = w ∧ c2 = [] := by
    cases c1 with
    | nil => exact ⟨rfl, (List.cons.inj h).1, (List.cons.inj h).2.symm⟩
    | cons y c1 => cases c1 <;> cases (List.cons.inj h).2
  obtain ⟨rfl, rfl, rfl⟩ := h1
  rw [List.mem_singleton.1 hx]
  rw [hin, i1] at hw
  obtain rfl := List.mem_singleton.1 hw
  show List.replicate 32 7 ≠ apartHash v.body
  rw [k1]
  decide

end Cardano.Props
