import Verif.Props.Altered
/-!
# Property C131: transactions that do not share inputs
-/
set_option autoImplicit false

namespace Cardano.Props
open Ed Bip32 Cbor TxSpec Transaction TxBuilder
open Ledger (read refOf outOf witOf UTxO Env)

/-- The ledger accepts all of these bytes, one after the other, and has the unspent outputs `u'` in the end. -/
inductive InTurn (LC : Ledger.Crypto) (e : Env) : UTxO → List Bytes → UTxO → Prop
  | nil (u : UTxO) : InTurn LC e u [] u
  | cons (u u' : UTxO) (bs : Bytes) (rest : List Bytes) (v : Ledger.TxView) (hv : read bs = some v) (ha : Ledger.Accepts LC e u v)
      (h : InTurn LC e (Ledger.apply LC u v) rest u') : InTurn LC e u (bs :: rest) u'

/-- A transaction and the unspent outputs that it does not touch. -/
theorem accepts_congr (LC : Ledger.Crypto) (e : Env) (u u' : UTxO) (v : Ledger.TxView) (h : ∀ r ∈ v.inputs, u' r = u r) (ha : Ledger.Accepts LC e u v) :
    Ledger.Accepts LC e u' v := by
  refine ⟨ha.ttl, ha.nonempty, fun r hr => by rw [h r hr]; exact ha.exist r hr, ha.fee, ?_, ha.minimum, ha.network, ha.size, ha.signatures,
    fun r hr o ho => ha.unlocked r hr o (by rw [← h r hr]; exact ho), ha.aux⟩
  rw [← ha.conserved]
  refine Finset.sum_congr rfl fun r hr => ?_
  unfold Ledger.UTxO.amount
  rw [h r (List.mem_toFinset.1 hr)]

/-- Two transactions that have nothing to do with each other: no common input, different ids, and no input that is an output of the other. -/
structure Apart (LC : Ledger.Crypto) (v w : Ledger.TxView) : Prop where
  inputs : ∀ r ∈ v.inputs, r ∉ w.inputs
  ids : LC.hash256 v.body ≠ LC.hash256 w.body
  left : ∀ r ∈ v.inputs, r.1 ≠ LC.hash256 w.body
  right : ∀ r ∈ w.inputs, r.1 ≠ LC.hash256 v.body

theorem Apart.symm {LC : Ledger.Crypto} {v w : Ledger.TxView} (h : Apart LC v w) : Apart LC w v :=
  ⟨fun r h1 h2 => h.inputs r h2 h1, h.ids.symm, h.right, h.left⟩

theorem apply_comm (LC : Ledger.Crypto) (v w : Ledger.TxView) (h : Apart LC v w) (u : UTxO) :
    Ledger.apply LC (Ledger.apply LC u v) w = Ledger.apply LC (Ledger.apply LC u w) v := by
  funext r
  unfold Ledger.apply
  by_cases h1 : r.1 = LC.hash256 v.body
  · by_cases h2 : r.1 = LC.hash256 w.body
    · exact absurd (h1.symm.trans h2) h.ids
    · have h3 : r ∉ w.inputs := fun h' => h.right r h' h1
      simp [h1, h3, h.ids]
  · by_cases h2 : r.1 = LC.hash256 w.body
    · have h3 : r ∉ v.inputs := fun h' => h.left r h' h2
      simp [h2, h3, h.ids.symm]
    · by_cases h3 : r ∈ v.inputs <;> by_cases h4 : r ∈ w.inputs <;> simp [h1, h2, h3, h4]

theorem inTurn_of_apart (LC : Ledger.Crypto) (e : Env) (l : List (Bytes × Ledger.TxView)) : ∀ u : UTxO, (∀ p ∈ l, read p.1 = some p.2 ∧ Ledger.Accepts LC e u p.2) →
    l.Pairwise (fun p q => Apart LC p.2 q.2) → InTurn LC e u (l.map (·.1)) (afterAll LC u (l.map (·.2))) := by
  induction l with
  | nil => intro u _ _; exact .nil u
  | cons p l ih =>
    intro u h hp
    obtain ⟨h1, h2⟩ := List.pairwise_cons.1 hp
    obtain ⟨g1, g2⟩ := h p List.mem_cons_self
    refine .cons u _ p.1 _ p.2 g1 g2 (ih _ (fun q hq => ⟨(h q (List.mem_cons_of_mem _ hq)).1, ?_⟩) h2)
    refine accepts_congr LC e u _ q.2 (fun r hr => ?_) (h q (List.mem_cons_of_mem _ hq)).2
    have ha := h1 q hq
    unfold Ledger.apply
    rw [if_neg (ha.right r hr), if_neg (fun h' => ha.inputs r h' hr)]

/-- A rearrangement of images comes from a rearrangement. -/
theorem perm_unmap {α β : Type} (f : α → β) {a m : List β} (h : a.Perm m) : ∀ l : List α, m = l.map f → ∃ l' : List α, l'.Perm l ∧ l'.map f = a := by
  induction h with
  | nil => intro l e; exact ⟨[], by rw [List.map_eq_nil_iff.1 e.symm], rfl⟩
  | cons x _ ih =>
    intro l e
    obtain ⟨y, l0, rfl, rfl, rfl⟩ := List.map_eq_cons_iff.1 e.symm
    obtain ⟨l', h1, rfl⟩ := ih l0 rfl
    exact ⟨y :: l', h1.cons y, rfl⟩
  | swap x y m =>
    intro l e
    obtain ⟨z, l0, rfl, rfl, e2⟩ := List.map_eq_cons_iff.1 e.symm
    obtain ⟨z', l1, rfl, rfl, rfl⟩ := List.map_eq_cons_iff.1 e2
    exact ⟨z' :: z :: l1, .swap _ _ _, rfl⟩
  | trans _ _ ih1 ih2 =>
    intro l e
    obtain ⟨l2, h2, rfl⟩ := ih2 l e
    obtain ⟨l1, h1, rfl⟩ := ih1 l2 rfl
    exact ⟨l1, h1.trans h2, rfl⟩

theorem afterAll_perm (LC : Ledger.Crypto) {l l' : List Ledger.TxView} (h : l'.Perm l) : ∀ u : UTxO, l'.Pairwise (Apart LC) → afterAll LC u l' = afterAll LC u l := by
  induction h with
  | nil => intro u _; rfl
  | cons v _ ih => intro u hp; exact ih _ (List.pairwise_cons.1 hp).2
  | swap v w l =>
    intro u hp
    show l.foldl _ (Ledger.apply LC (Ledger.apply LC u w) v) = l.foldl _ (Ledger.apply LC (Ledger.apply LC u v) w)
    rw [apply_comm LC v w ((List.pairwise_cons.1 hp).1 v List.mem_cons_self).symm u]
  | trans h1 _ ih1 ih2 =>
    intro u hp
    rw [ih1 u hp, ih2 u ((h1.pairwise_iff (fun h => h.symm)).1 hp)]

/-- A built transaction: the builder, the bytes, and what the ledger reads in them. -/
structure Made (H : Hashes) (blake256 : Bytes → Bytes) (b : Builder) (bs : Bytes) (v : Ledger.TxView) : Prop where
  fits : BuilderFits b
  built : Finishes (packageCrypto H blake256) b bs
  seen : read bs = some v

/-- **C131.** Any number of built transactions, each of which the ledger would accept now, no two with a common input. It accepts them all, in whatever order they arrive, and the
result does not depend on the order. (None spends an output of another, and no two have different bodies with the same hash.) -/
theorem C131_any_order (H : Hashes) (hH : H.Ok) (blake224 blake256 : Bytes → Bytes) (h256 : ∀ m, (blake256 m).length = 32)
    (txs : List (Builder × Bytes × Ledger.TxView)) (e : Env) (u : UTxO) (hm : ∀ p ∈ txs, Made H blake256 p.1 p.2.1 p.2.2)
    (ha : ∀ p ∈ txs, Ledger.Accepts (ledgerCrypto H blake224 blake256) e u p.2.2)
    (hshare : txs.Pairwise fun p q => ∀ i ∈ p.1.body.inputs, ∀ j ∈ q.1.body.inputs, ¬ (i.txHash = j.txHash ∧ i.index = j.index))
    (hnew : ∀ p ∈ txs, ∀ q ∈ txs, ∀ i ∈ p.1.body.inputs, i.txHash ≠ blake256 q.2.2.body)
    (hno : ∀ p ∈ txs, ∀ q ∈ txs, blake256 p.2.2.body = blake256 q.2.2.body → p.2.2.body = q.2.2.body) :
    ∃ u', ∀ order : List Bytes, order.Perm (txs.map (·.2.1)) → InTurn (ledgerCrypto H blake224 blake256) e u order u' := by
  have hin : ∀ p ∈ txs, p.2.2.inputs = p.1.body.inputs.map refOf := fun p hp =>
    (finish_read H hH blake256 h256 p.1 p.2.1 (hm p hp).fits (hm p hp).built p.2.2 (hm p hp).seen).1
  have hap : txs.Pairwise fun p q => Apart (ledgerCrypto H blake224 blake256) p.2.2 q.2.2 := by
    refine List.Pairwise.imp_of_mem ?_ hshare
    intro p q hp hq hs
    have hdis : ∀ r ∈ p.2.2.inputs, r ∉ q.2.2.inputs := by
      intro r h1 h2
      rw [hin p hp] at h1
      rw [hin q hq] at h2
      obtain ⟨i, hi, rfl⟩ := List.mem_map.1 h1
      obtain ⟨j, hj, e⟩ := List.mem_map.1 h2
      unfold refOf at e
      injection e with e1 e2
      exact hs i hi j hj ⟨e1.symm, UInt16.toNat_inj.1 e2.symm⟩
    refine ⟨hdis, ?_, ?_, ?_⟩
    · intro hid
      have hb := hno p hp q hq hid
      obtain ⟨⟨x, hx⟩, -⟩ := finish_witnesses H hH blake256 h256 p.1 p.2.1 (hm p hp).fits (hm p hp).built p.2.2 (hm p hp).seen
      have := (read_same_body p.2.1 q.2.1 p.2.2 q.2.2 (hm p hp).seen (hm q hq).seen x hx hb.symm).1
      obtain ⟨r, hr⟩ := List.exists_mem_of_ne_nil _ (ha p hp).nonempty
      exact hdis r hr (by rw [this]; exact hr)
    · intro r hr
      rw [hin p hp] at hr
      obtain ⟨i, hi, rfl⟩ := List.mem_map.1 hr
      exact hnew p hp q hq i hi
    · intro r hr
      rw [hin q hq] at hr
      obtain ⟨i, hi, rfl⟩ := List.mem_map.1 hr
      exact hnew q hq p hp i hi
  refine ⟨afterAll (ledgerCrypto H blake224 blake256) u (txs.map (·.2.2)), fun order ho => ?_⟩
  obtain ⟨txs', hperm, rfl⟩ := perm_unmap (fun p : Builder × Bytes × Ledger.TxView => p.2.1) ho txs rfl
  have hap' : txs'.Pairwise fun p q => Apart (ledgerCrypto H blake224 blake256) p.2.2 q.2.2 :=
    (hperm.pairwise_iff (R := fun p q => Apart (ledgerCrypto H blake224 blake256) p.2.2 q.2.2) (fun h => h.symm)).2 hap
  have h1 := inTurn_of_apart (ledgerCrypto H blake224 blake256) e (txs'.map (·.2)) u
    (by
      intro p hp
      obtain ⟨q, hq, rfl⟩ := List.mem_map.1 hp
      exact ⟨(hm q (hperm.mem_iff.1 hq)).seen, ha q (hperm.mem_iff.1 hq)⟩)
    (List.pairwise_map.2 hap')
  rw [List.map_map, List.map_map] at h1
  have h2 := afterAll_perm (ledgerCrypto H blake224 blake256) (hperm.map (·.2.2)) u (List.pairwise_map.2 hap')
  rw [← h2]
  exact h1

/-! ### Example -/

/-- A hash function for the example, which shows where two bodies differ: in the byte after the five of `{0: [[h'`. -/
def apartHash : Bytes → Bytes := fun m => List.replicate 32 (m.getD 6 0 + 100)

def apartSession (c : UInt8) : Session := { sampleSession [sampleKey] 10000000 5000000 sampleAddr with inputs := [⟨List.replicate 32 c, 0, 10000000⟩] }

theorem apart_fee (H : Hashes) (bl : Bytes → Bytes) (c : UInt8) (hc : c = 7 ∨ c = 8) : (MinFee (packageCrypto H bl) (apartSession c).builder).1 = 167877 := by
  have : (MinFee (packageCrypto H bl) (apartSession c).builder).1 =
      (MinFee sampleCrypto { sampleSession [] 10000000 5000000 sampleAddr with inputs := [⟨List.replicate 32 c, 0, 10000000⟩] }.builder).1 := rfl
  rw [this]
  rcases hc with rfl | rfl <;> decide +kernel

/-- The byte and the length of a body of the example. -/
def byteAndSize : Res Bytes → Option (UInt8 × Nat)
  | .ok b => some (b.getD 6 0, b.length)
  | _ => none

/-- One of the transactions of the example. -/
theorem apart_made (H : Hashes) (hH : H.Ok) (blake224 : Bytes → Bytes) (pk : Bytes) (hpk : (packageCrypto H apartHash).publicKey sampleKey = .ok pk) (c : UInt8)
    (hc : c = 7 ∨ c = 8) (u : UTxO) (hu : u (List.replicate 32 c, 0) = some (0x61 :: blake224 pk, 10000000)) :
    ∃ bs v, Made H apartHash (AddChangeIfNeeded (packageCrypto H apartHash) (apartSession c).builder (apartSession c).change) bs v ∧
      (AddChangeIfNeeded (packageCrypto H apartHash) (apartSession c).builder (apartSession c).change).body.inputs = [⟨List.replicate 32 c, 0, 10000000⟩] ∧
      apartHash v.body = List.replicate 32 (c + 100) ∧
      Ledger.Accepts (ledgerCrypto H blake224 apartHash) (envOf ⟨44, 155381, 16384, 1000000⟩ 1 0) u v := by
  have h256 : ∀ m, (apartHash m).length = 32 := fun m => List.length_replicate
  obtain ⟨bs, hy⟩ := variant_yields H hH apartHash (apartSession c) rfl (by intro k h; exact List.mem_singleton.1 h)
    (by intro o h; rw [List.mem_singleton.1 h]) ⟨_, rfl⟩ _ (apart_fee H apartHash c hc)
  have hy0 := hy
  obtain ⟨t, hb, hft⟩ := hy
  obtain ⟨hbody, hval, body, h1, h2, h3⟩ := built_parts (packageCrypto H apartHash) _ _ _ t bs encNil hb (fun _ => rfl)
  rw [apart_fee H apartHash c hc] at hbody
  have hsum : totalIn [⟨List.replicate 32 c, 0, 10000000⟩] - totalOut [⟨.base MainNet goldenPayment goldenStake, 5000000⟩] - 167877 = (4832123 : UInt64) := by
    rcases hc with rfl | rfl <;> decide +kernel
  have hbody : t.body = ⟨[⟨List.replicate 32 c, 0, 10000000⟩], [⟨.base MainNet goldenPayment goldenStake, 5000000⟩, ⟨sampleAddr, 4832123⟩], 167877, 0, []⟩ := by
    rw [← hsum]; exact hbody
  have hbyte : body.getD 6 0 = c ∧ body.length = 177 := by
    have e : byteAndSize (marshalBody ⟨[⟨List.replicate 32 c, 0, 10000000⟩], [⟨.base MainNet goldenPayment goldenStake, 5000000⟩, ⟨sampleAddr, 4832123⟩], 167877, 0, []⟩) =
        some (c, 177) := by
      rcases hc with rfl | rfl <;> decide +kernel
    rw [← hbody, h1] at e
    injection e with e
    injection e with e1 e2
    exact ⟨e1, e2⟩
  have h3' := witnessesOf_lengths _ (package_key_length H apartHash) (package_sig_length H hH apartHash) _ _ _ h3
  have hk' : (apartSession c).builder.xprvs ++ [] = [sampleKey] := rfl
  rw [hk'] at h3'
  have hw := witness_length t.witness h3'.2 (by rw [h3'.1]; exact (by decide : 1 < 2 ^ 63))
  rw [h3'.1] at hw
  have hw : (marshalWitness t.witness).length = 104 := hw
  have hbl : (encBool t.valid).length = 1 := by rw [hval]; rfl
  have hn : encNil.length = 1 := rfl
  have hlen : bs.length ≤ 16384 := by
    rw [h2, List.length_cons, List.length_append, List.length_append, List.length_append, hbl, hn, hw]
    omega
  obtain ⟨v, hr, ha, -⟩ := C77_ledger_accepts_partial H hH blake224 apartHash h256 (apartSession c) sampleKey pk u 1 0 167877 bs rfl sampleKey_ok hpk
    ⟨by intro i hi; rw [List.mem_singleton.1 hi]; exact List.length_replicate, by
      intro i hi; rw [List.mem_singleton.1 hi]
      exact ⟨_, hu, pk, List.mem_singleton.2 rfl, 0x61, [], by rw [List.append_nil], by decide⟩⟩
    (List.cons_ne_nil _ _) (List.nodup_singleton _) (by decide : 1 < 2 ^ 63)
    (by intro o ho; rw [List.mem_singleton.1 ho]; exact ⟨⟨by decide +kernel, _, _, rfl, by decide +kernel⟩, by rcases hc with rfl | rfl <;> decide +kernel⟩)
    (by decide : 1 < 2 ^ 32) ⟨(by decide +kernel : Ledger.OutputAddress (Addr.bytes sampleAddr)), _, _, rfl, by decide +kernel⟩ (.inl rfl) (fun h => absurd rfl h) hy0
    ⟨by rcases hc with rfl | rfl <;> decide +kernel, by rcases hc with rfl | rfl <;> decide +kernel, by rcases hc with rfl | rfl <;> decide +kernel, .inr (by rcases hc with rfl | rfl <;> decide +kernel), by rcases hc with rfl | rfl <;> decide +kernel, by rcases hc with rfl | rfl <;> decide +kernel⟩
    (by rcases hc with rfl | rfl <;> decide +kernel) (by rcases hc with rfl | rfl <;> decide +kernel) hlen
  obtain ⟨h, b', k, e1, e2, e3⟩ := hb.run
  have hfin : Finishes (packageCrypto H apartHash) (AddChangeIfNeeded (packageCrypto H apartHash) (apartSession c).builder (apartSession c).change) bs :=
    ⟨h, b', k, e1, by rw [e2]; exact e3⟩
  have hbb : (AddChangeIfNeeded (packageCrypto H apartHash) (apartSession c).builder (apartSession c).change).body =
      ⟨[⟨List.replicate 32 c, 0, 10000000⟩], [⟨.base MainNet goldenPayment goldenStake, 5000000⟩, ⟨sampleAddr, 4832123⟩], 167877, 0, []⟩ := by
    rw [addChange_eq, apart_fee H apartHash c hc, ← hsum]; rfl
  have hfit : BuilderFits (AddChangeIfNeeded (packageCrypto H apartHash) (apartSession c).builder (apartSession c).change) := by
    refine order_fits _ ?_ ?_ ?_ ?_ ?_ (by rw [addChange_eq]; exact (by decide : 1 < 100)) (.inl rfl) <;> rw [hbb]
    · intro i hi; rw [List.mem_singleton.1 hi]; exact List.length_replicate
    · exact (by decide : 1 < 100)
    · exact (by decide : 2 < 100)
    · intro o ho
      simp only [List.mem_cons, List.not_mem_nil, or_false] at ho
      rcases ho with h | h <;> rw [h]
      · exact .inl rfl
      · exact .inr rfl
  refine ⟨bs, v, ⟨hfit, hfin, hr⟩, by rw [hbb], ?_, ha⟩
  have hvb : v.body = body := by
    have hwf : WitnessFits t.witness := ⟨by rw [h3'.1]; exact (by decide : 1 < 2 ^ 63), fun w hw => by have := h3'.2 w hw; omega⟩
    have hbf : BodyFits t.body := by
      rw [hbody, ← hbb]
      exact ⟨hfit.inputs, hfit.outputs, hfit.ids, hfit.addrs, hfit.aux⟩
    have hread := Ledger.read_bytes t.body t.witness t.valid body encNil (.simple 22) hbf hwf h1 enc_nil.parse
    dsimp only at hread
    rw [← h2, hr] at hread
    obtain ⟨aux, -, rfl, -⟩ := Ledger.assemble_of _ _ _ _ _ _ _ _ hread.symm
    rfl
  rw [hvb]
  unfold apartHash
  rw [hbyte.1]

theorem apart_sample (H : Hashes) (hH : H.Ok) (blake224 : Bytes → Bytes) (pk : Bytes) (hpk : (packageCrypto H apartHash).publicKey sampleKey = .ok pk) (c : UInt8)
    (hc : c = 7 ∨ c = 8) (u : UTxO) (hu : u (List.replicate 32 c, 0) = some (0x61 :: blake224 pk, 10000000)) :
    ∃ b bs v, Made H apartHash b bs v ∧ b.body.inputs = [⟨List.replicate 32 c, 0, 10000000⟩] ∧ apartHash v.body = List.replicate 32 (c + 100) ∧
      Ledger.Accepts (ledgerCrypto H blake224 apartHash) (envOf ⟨44, 155381, 16384, 1000000⟩ 1 0) u v :=
  ⟨_, apart_made H hH blake224 pk hpk c hc u hu⟩

/-- C131: two payments from outputs of two transactions. -/
example (H : Hashes) (hH : H.Ok) (blake224 : Bytes → Bytes) :
    ∃ (txs : List (Builder × Bytes × Ledger.TxView)) (e : Env) (u : UTxO), txs.length = 2 ∧ (∀ p ∈ txs, Made H apartHash p.1 p.2.1 p.2.2) ∧
      (∀ p ∈ txs, Ledger.Accepts (ledgerCrypto H blake224 apartHash) e u p.2.2) ∧
      (txs.Pairwise fun p q => ∀ i ∈ p.1.body.inputs, ∀ j ∈ q.1.body.inputs, ¬ (i.txHash = j.txHash ∧ i.index = j.index)) ∧
      (∀ p ∈ txs, ∀ q ∈ txs, ∀ i ∈ p.1.body.inputs, i.txHash ≠ apartHash q.2.2.body) ∧
      ∀ p ∈ txs, ∀ q ∈ txs, apartHash p.2.2.body = apartHash q.2.2.body → p.2.2.body = q.2.2.body := by
  obtain ⟨_, pk, -, s2, -⟩ := C37_signature_valid H hH sampleKey sampleKey_ok.1 sampleKey_ok.2 []
  have p1 := packageCrypto_publicKey H apartHash sampleKey sampleKey_ok.1 sampleKey_ok.2
  rw [s2] at p1
  obtain ⟨b, bs, v, m1, i1, k1, a1⟩ := apart_sample H hH blake224 pk p1 7 (.inl rfl) (fun _ => some (0x61 :: blake224 pk, 10000000)) rfl
  obtain ⟨b', bs', v', m2, i2, k2, a2⟩ := apart_sample H hH blake224 pk p1 8 (.inr rfl) (fun _ => some (0x61 :: blake224 pk, 10000000)) rfl
  refine ⟨[(b, bs, v), (b', bs', v')], envOf ⟨44, 155381, 16384, 1000000⟩ 1 0, fun _ => some (0x61 :: blake224 pk, 10000000), rfl, ?_, ?_, ?_, ?_, ?_⟩
  · simp only [List.mem_cons, List.not_mem_nil, or_false]
    rintro p (rfl | rfl) <;> assumption
  · simp only [List.mem_cons, List.not_mem_nil, or_false]
    rintro p (rfl | rfl) <;> assumption
  · refine List.pairwise_pair.2 ?_
    dsimp only
    rw [i1, i2]
    intro i hi j hj
    rw [List.mem_singleton.1 hi, List.mem_singleton.1 hj]
    decide
  · simp only [List.mem_cons, List.not_mem_nil, or_false]
    rintro p (rfl | rfl) q (rfl | rfl) i hi <;> dsimp only at hi ⊢ <;> simp only [i1, i2, List.mem_singleton] at hi <;> rw [hi] <;> simp only [k1, k2] <;> decide
  · simp only [List.mem_cons, List.not_mem_nil, or_false]
    rintro p (rfl | rfl) q (rfl | rfl) h <;> dsimp only at h ⊢ <;> simp only [k1, k2] at h
    · exact absurd h (by decide)
    · exact absurd h (by decide)

end Cardano.Props
