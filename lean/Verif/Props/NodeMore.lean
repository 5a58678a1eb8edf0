import Verif.Node.Client
import Verif.Props.Restore
/-!
# Properties C117, C118 and C119: what the clients of the node tell their user
-/
set_option autoImplicit false

namespace Cardano.Props
open Node Cbor TxSpec Transaction TxBuilder Addr Cardano.Spec Ledger Bip32

/-! ### C117 -/

theorem all_read {α : Type} (f : Item → Option α) : ∀ (xs : List Item) (as : List α), Ledger.all f xs = some as → ∀ a ∈ as, ∃ x ∈ xs, f x = some a
  | [], as, h, a, ha => by cases h; cases ha
  | x :: xs, as, h, a, ha => by
    unfold Ledger.all at h
    cases h1 : f x with
    | none => rw [h1] at h; cases h
    | some b =>
      cases h2 : Ledger.all f xs with
      | none => rw [h1, h2] at h; cases h
      | some bs =>
        rw [h1, h2] at h
        cases h
        rcases List.mem_cons.1 ha with rfl | ha
        · exact ⟨x, List.mem_cons_self .., h1⟩
        · obtain ⟨y, hy, e⟩ := all_read f xs bs h2 a ha
          exact ⟨y, List.mem_cons_of_mem _ hy, e⟩

/-- The ledger reads only references with ids of 32 bytes. -/
theorem read_ids (bs : Bytes) (v : TxView) (h : read bs = some v) : ∀ r ∈ v.inputs, r.1.length = 32 := by
  unfold Ledger.read at h
  split at h
  · cases h
  split at h
  swap; · cases h
  simp only [Option.bind_eq_bind, Option.bind_eq_some_iff] at h
  obtain ⟨⟨b, r1⟩, -, ⟨w, r2⟩, -, ⟨x, r3⟩, -, ⟨y, r4⟩, -, h⟩ := h
  split at h
  swap; · cases h
  unfold assemble at h
  simp only [Option.bind_eq_bind, Option.bind_eq_some_iff] at h
  obtain ⟨ps, -, inputs, hi, outs, -, fee, -, ttl, -, ah, -, ws, -, wits, -, aux, -, h⟩ := h
  split at h
  swap; · cases h
  injection h with h
  subst h
  unfold field at hi
  obtain ⟨i, -, hi⟩ := Option.bind_eq_some_iff.1 hi
  obtain ⟨xs, -, hi⟩ := Option.bind_eq_some_iff.1 hi
  intro r hr
  obtain ⟨z, -, hz⟩ := all_read _ _ _ hi r hr
  unfold readInput at hz
  split at hz
  · split at hz
    · rename_i hc
      cases hz
      exact hc.1
    · cases hz
  · cases hz

/-- The `j`-th output of an accepted transaction is found under its id. -/
theorem entered (LC : Ledger.Crypto) (u : UTxO) (v : TxView) (j : Nat) (hj : j < 2 ^ 16) (o : Out) (ho : v.outputs[j]? = some o) (amount : UInt64) :
    Ledger.apply LC u v (refOf (NewTxInput (Hex.encode (LC.hash256 v.body)) (UInt16.ofNat j) amount)) = some o := by
  unfold NewTxInput refOf
  rw [hex_decode_of (isHexOf_encode _)]
  unfold Ledger.apply
  dsimp only
  rw [if_pos rfl, UInt16.toNat_ofNat', Nat.mod_eq_of_lt (by simpa using hj)]
  exact ho

/-- **C117 (partial): a service that answers with the bare digits.** What `SubmitTx` returns without an error is the id under which the ledger enters the outputs: `NewTxInput`
with it is a reference to the output. Missing: JSON answers, and the command line tool, see the other theorems. -/
theorem C117_plain_partial (C : Crypto) (post : Request → Res Response) (n : BfNode) (now : NetworkInfo) (t : Tx) (k : Nat) (bs : Bytes) (LC : Ledger.Crypto) (u : UTxO) (v : TxView)
    (hb : Transaction.bytes C t k = .ok bs) (hv : read bs = some v) (j : Nat) (hj : j < 2 ^ 16) (o : Out) (ho : v.outputs[j]? = some o) (amount : UInt64)
    (hs : ∀ req w, req.body = bs → read req.body = some w → post req = .ok ⟨200, Hex.encode (LC.hash256 w.body)⟩) :
    ∃ s, n.SubmitTx C post now t k = .ok (s, false) ∧ Ledger.apply LC u v (refOf (NewTxInput s (UInt16.ofNat j) amount)) = some o := by
  refine ⟨Hex.encode (LC.hash256 v.body), ?_, ?_⟩
  · unfold BfNode.SubmitTx bfSubmitTx
    rw [hb, Res.ok_bind, hs _ v rfl hv]
    rfl
  · exact entered LC u v j hj o ho amount

/-- Text that does not begin with a hexadecimal digit, used as the id of an input: the input is refused by every ledger, whatever else is in the transaction. -/
theorem not_digits_rejected (H : Hashes) (hH : H.Ok) (blake256 : Bytes → Bytes) (h256 : ∀ m, (blake256 m).length = 32) (c d : UInt8) (s : Bytes) (hc : hexVal c = none)
    (j : UInt16) (amount : UInt64) (b : Builder) (bs : Bytes) (hi : NewTxInput (c :: d :: s) j amount ∈ b.body.inputs)
    (hf : BuilderFits b) (hy : Finishes (packageCrypto H blake256) b bs) : read bs = none := by
  cases hv : read bs with
  | none => rfl
  | some v =>
    obtain ⟨ws, -, -, e, -⟩ := finish_seen H hH blake256 h256 b bs hf hy v hv
    have := read_ids bs v hv (refOf (NewTxInput (c :: d :: s) j amount)) (by rw [e]; exact List.mem_map.2 ⟨_, hi, rfl⟩)
    rw [(C31_malformed_hex_accepted c d s hc j amount).1] at this
    cases this

/-- **C117 is false for answers in JSON**, the ones of Blockfrost: the string returned keeps the quotation marks. It is taken by `NewTxInput` without complaint, becomes the empty
id, and every transaction that spends the output in this way is refused. -/
theorem C117_quoted (H : Hashes) (hH : H.Ok) (blake256 : Bytes → Bytes) (h256 : ∀ m, (blake256 m).length = 32) (C : Crypto)
    (post : Request → Res Response) (n : BfNode) (now : NetworkInfo) (t : Tx) (k : Nat) (bs id : Bytes) (hb : Transaction.bytes C t k = .ok bs)
    (hs : ∀ req, req.body = bs → post req = .ok ⟨200, 34 :: (Hex.encode id ++ [34])⟩) :
    ∃ s, n.SubmitTx C post now t k = .ok (s, false) ∧ s ≠ Hex.encode id ∧
      ∀ j amount, (NewTxInput s j amount).txHash = [] ∧
        ∀ b bs', NewTxInput s j amount ∈ b.body.inputs → BuilderFits b → Finishes (packageCrypto H blake256) b bs' → read bs' = none := by
  refine ⟨34 :: (Hex.encode id ++ [34]), ?_, ?_, ?_⟩
  · unfold BfNode.SubmitTx bfSubmitTx
    rw [hb, Res.ok_bind, hs _ rfl]
    rfl
  · intro h
    have := congrArg List.length h
    simp only [List.length_cons, List.length_append, List.length_nil] at this
    omega
  · intro j amount
    obtain ⟨d, s, e⟩ : ∃ d s, Hex.encode id ++ [34] = d :: s := by
      cases Hex.encode id with
      | nil => exact ⟨_, _, rfl⟩
      | cons a l => exact ⟨a, _, rfl⟩
    rw [e]
    refine ⟨by rw [(C31_malformed_hex_accepted 34 d s (by decide) j amount).1], ?_⟩
    intro b bs' hi hf hy
    exact not_digits_rejected H hH blake256 h256 34 d s (by decide) j amount b bs' hi hf hy

/-- **C117 is false for the command line tool**: what is returned is what the tool prints, and neither the sentence of older versions ("Transaction successfully submitted.") nor
the JSON object of newer ones begins with a hexadecimal digit. -/
theorem C117_cli (H : Hashes) (hH : H.Ok) (blake256 : Bytes → Bytes) (h256 : ∀ m, (blake256 m).length = 32) (C : Crypto)
    (os : OS) (cliPath : Bytes) (net : NetworkInfo) (t : Tx) (k : Nat) (s : Bytes) (c d : UInt8) (rest : Bytes) (hc : c = 84 ∨ c = 123)
    (hrun : ∀ data args, os.run cliPath data args = .ok (c :: d :: rest)) (hs : (cliSubmit C os cliPath net t k).1 = (s, none)) :
    s = c :: d :: rest ∧ ∀ j amount, (NewTxInput s j amount).txHash = [] ∧
        ∀ b bs', NewTxInput s j amount ∈ b.body.inputs → BuilderFits b → Finishes (packageCrypto H blake256) b bs' → read bs' = none := by
  have e : s = c :: d :: rest := by
    unfold cliSubmit at hs
    split at hs
    · cases hs
    · cases hs
    · split at hs
      · cases hs
      · split at hs
        · cases hs
        · dsimp only at hs
          rw [hrun] at hs
          dsimp only at hs
          split at hs
          · cases hs
          · cases hs; rfl
  subst e
  have hv : hexVal c = none := by rcases hc with rfl | rfl <;> decide
  refine ⟨rfl, fun j amount => ⟨by rw [(C31_malformed_hex_accepted c d rest hv j amount).1], fun b bs' hi hf hy => ?_⟩⟩
  exact not_digits_rejected H hH blake256 h256 c d rest hv j amount b bs' hi hf hy

/-- **C117: a refusal.** Beside the error, the text of the refusal is returned where the id is documented. -/
theorem C117_refusal (C : Crypto) (post : Request → Res Response) (n : BfNode) (now : NetworkInfo) (t : Tx) (k : Nat) (bs : Bytes) (r : Response)
    (hb : Transaction.bytes C t k = .ok bs) (hs : ∀ req, req.body = bs → post req = .ok r) (hr : r.status ≠ 200) :
    n.SubmitTx C post now t k = .ok (r.body, true) := by
  unfold BfNode.SubmitTx bfSubmitTx
  rw [hb, Res.ok_bind, hs _ rfl, Res.ok_bind]
  show Res.ok (r.body, decide (r.status ≠ 200)) = _
  rw [decide_eq_true hr]

/-- **C117: what can be used instead.** The hash of the transaction that was built is the id under which the ledger enters its outputs. -/
theorem C117_hash (H : Hashes) (hH : H.Ok) (blake224 blake256 : Bytes → Bytes) (h256 : ∀ m, (blake256 m).length = 32) (s : Session) (t : Tx) (bs : Bytes) (u : UTxO)
    (hf : s.Fits) (hb : Built (packageCrypto H blake256) s.builder s.change [] t bs) (v : Ledger.TxView) (hv : read bs = some v) (k : Nat)
    (j : Nat) (hj : j < 2 ^ 16) (o : Out) (ho : v.outputs[j]? = some o) (amount : UInt64) :
    ∃ id, Transaction.hash (packageCrypto H blake256) t k = .ok id ∧
      Ledger.apply (ledgerCrypto H blake224 blake256) u v (refOf (NewTxInput (Hex.encode id) (UInt16.ofNat j) amount)) = some o := by
  refine ⟨_, built_id H hH blake256 h256 s t bs hf hb v hv k, ?_⟩
  exact entered (ledgerCrypto H blake224 blake256) u v j hj o ho amount

/-! ### C118 -/

/-- A service that lists in pages: a page has `count` entries, 100 if the request does not say; the first page if the request does not say. -/
def paged (everything : List Utxo) (q : APIQueryParams) : List Utxo :=
  let count := if q.count = 0 then 100 else q.count
  let page := if q.page = 0 then 1 else q.page
  (everything.drop ((page - 1) * count)).take count

theorem All2.take {α β : Type} {R : α → β → Prop} {l : List α} {m : List β} (h : All2 R l m) (n : Nat) : All2 R (l.take n) (m.take n) := by
  induction h generalizing n with
  | nil => rw [List.take_nil, List.take_nil]; exact .nil
  | cons hr _ ih =>
    cases n with
    | zero => exact .nil
    | succ n => exact .cons hr (ih n)

/-- What `UTXOs` returns is the first hundred of the unspent outputs. -/
theorem C118_first_page (n : BfNode) (query : Server → Bytes → APIQueryParams → Res (List Utxo)) (addr : Bytes) (us : List Utxo) (is : List TxInput)
    (hq : ∀ q, query n.client addr q = .ok (paged us q)) (h : All2 Describes us is) : n.UTXOs query addr = .ok (is.take 100) := by
  unfold BfNode.UTXOs
  rw [hq, Res.ok_bind]
  have := C46_utxos_partial (fun _ _ => .ok (paged us {})) MainNet addr (paged us {}) (is.take 100) rfl (by
    show All2 Describes ((us.drop ((1 - 1) * 100)).take 100) (is.take 100)
    rw [Nat.sub_self, Nat.zero_mul, List.drop_zero]
    exact All2.take h 100)
  unfold bfUTXOs at this
  rw [Res.ok_bind] at this
  exact this

/-- **C118 (partial).** For an address with at most a hundred unspent outputs all of them are returned. Missing: more outputs, for which the claim is false,
`C118_outputs_missing`. -/
theorem C118_all_partial (n : BfNode) (query : Server → Bytes → APIQueryParams → Res (List Utxo)) (addr : Bytes) (us : List Utxo) (is : List TxInput)
    (hq : ∀ q, query n.client addr q = .ok (paged us q)) (h : All2 Describes us is) (hl : us.length ≤ 100) : n.UTXOs query addr = .ok is := by
  rw [C118_first_page n query addr us is hq h, List.take_of_length_le]
  rw [← TxBuilder.All2.length_eq h]; exact hl

/-- **C118 is false with more than a hundred unspent outputs**: without an error, every output after the first hundred is missing, and so is what it holds: the sum is the sum of
the first hundred only. -/
theorem C118_outputs_missing (n : BfNode) (query : Server → Bytes → APIQueryParams → Res (List Utxo)) (addr : Bytes) (us : List Utxo) (is : List TxInput)
    (hq : ∀ q, query n.client addr q = .ok (paged us q)) (h : All2 Describes us is) (hl : 100 < us.length) (hd : (is.map refOf).Nodup) :
    ∃ found, n.UTXOs query addr = .ok found ∧ found.length = 100 ∧
      (∀ j i, 100 ≤ j → is[j]? = some i → refOf i ∉ found.map refOf) ∧
      (found.map (·.amount.toNat)).sum + ((is.drop 100).map (·.amount.toNat)).sum = (is.map (·.amount.toNat)).sum := by
  refine ⟨_, C118_first_page n query addr us is hq h, ?_, ?_, ?_⟩
  · rw [List.length_take, ← TxBuilder.All2.length_eq h]; omega
  · intro j i hj hi hm
    rw [← List.take_append_drop 100 is, List.map_append, List.nodup_append] at hd
    refine hd.2.2 _ hm _ ?_ rfl
    refine List.mem_map.2 ⟨i, ?_, rfl⟩
    refine List.mem_iff_getElem?.2 ⟨j - 100, ?_⟩
    rw [List.getElem?_drop, Nat.add_sub_cancel' hj]
    exact hi
  · rw [← List.sum_append, ← List.map_append, List.take_append_drop]

/-! ### C119 -/

/-- The queries of a client go to the server of the network it was made with, for good. -/
theorem C119_queries (projectId : Bytes) (net : NetworkInfo) (query query' : Server → Bytes → APIQueryParams → Res (List Utxo)) (addr : Bytes)
    (h : ∀ q, query (if net.networkId = 0 then .testNet else .mainNet) addr q = query' (if net.networkId = 0 then .testNet else .mainNet) addr q) :
    (NewBlockfrostClient projectId net).UTXOs query addr = (NewBlockfrostClient projectId net).UTXOs query' addr := by
  unfold BfNode.UTXOs
  have e : (NewBlockfrostClient projectId net).client = if net.networkId = 0 then .testNet else .mainNet := rfl
  rw [e, h]

/-- **C119 (partial).** While the value the client was made with is left alone, transactions go where the queries go. Missing: `C119_moves`. -/
theorem C119_same_partial (projectId : Bytes) (net : NetworkInfo) (C : Crypto) (post : Request → Res Response) (t : Tx) (k : Nat) (bs : Bytes) (hb : Transaction.bytes C t k = .ok bs) :
    (NewBlockfrostClient projectId net).SubmitTx C post net t k =
      (post ⟨(NewBlockfrostClient projectId net).client, projectId, bs⟩ >>= fun r => .ok (r.body, decide (r.status ≠ 200))) := by
  unfold BfNode.SubmitTx bfSubmitTx
  rw [hb, Res.ok_bind]
  rfl

/-- **C119 is false**: the client keeps the pointer. If the value it points to becomes another network later, transactions are sent to the other server, although the queries go on
as before. -/
theorem C119_moves (projectId : Bytes) (net now : NetworkInfo) (h : net.networkId = 0 ↔ now.networkId ≠ 0) (C : Crypto) (post : Request → Res Response) (t : Tx) (k : Nat) (bs : Bytes)
    (hb : Transaction.bytes C t k = .ok bs) :
    ∃ other, other ≠ (NewBlockfrostClient projectId net).client ∧
      (NewBlockfrostClient projectId net).SubmitTx C post now t k = (post ⟨other, projectId, bs⟩ >>= fun r => .ok (r.body, decide (r.status ≠ 200))) := by
  refine ⟨getNetwork now, ?_, ?_⟩
  · show (if now.networkId = 0 then Server.testNet else .mainNet) ≠ if net.networkId = 0 then .testNet else .mainNet
    by_cases c : now.networkId = 0
    · rw [if_pos c, if_neg (fun e => h.1 e c)]; decide
    · rw [if_neg c, if_pos (h.2 c)]; decide
  · unfold BfNode.SubmitTx bfSubmitTx
    rw [hb, Res.ok_bind]
    rfl

/-! ### The hypotheses are met -/

/-- The `j`-th output of a transaction, with 1 ada, in the words of the service and as an input. -/
def listed (j : Nat) : Utxo := ⟨Hex.encode (List.replicate 32 7), j, [⟨asc ['t','o','k','e','n'], asc ['5']⟩, ⟨lovelaceUnit, asc ['1','0','0','0','0','0','0']⟩]⟩
def listedInput (j : Nat) : TxInput := ⟨List.replicate 32 7, UInt16.ofNat j, 1000000⟩

theorem listed_describes (j : Nat) (hj : j < 65536) : Describes (listed j) (listedInput j) where
  hash := isHexOf_encode _
  index := by
    show (j : Int) = ((UInt16.ofNat j).toNat : Int)
    rw [UInt16.toNat_ofNat', Nat.mod_eq_of_lt (by simpa using hj)]
  amount := ⟨[⟨asc ['t','o','k','e','n'], asc ['5']⟩], asc ['1','0','0','0','0','0','0'], [], rfl, by decide, by decide, by unfold Digits; decide, (by decide : decFrom 0 (asc ['1','0','0','0','0','0','0']) = (1000000 : UInt64).toNat)⟩
  fits := (by decide : (1000000 : UInt64).toNat < 2 ^ 63)

theorem all2_map {α β γ : Type} (R : β → γ → Prop) (f : α → β) (g : α → γ) : ∀ l : List α, (∀ a ∈ l, R (f a) (g a)) → All2 R (l.map f) (l.map g)
  | [], _ => .nil
  | a :: l, h => .cons (h a (List.mem_cons_self ..)) (all2_map R f g l fun b hb => h b (List.mem_cons_of_mem _ hb))

/-- C118: any number of outputs of a transaction (up to the number that can be referred to), in particular more than a hundred. -/
example (n : Nat) (hn : 100 < n) (h : n ≤ 65536) : ∃ (us : List Utxo) (is : List TxInput), All2 Describes us is ∧ 100 < us.length ∧ (is.map refOf).Nodup := by
  refine ⟨(List.range n).map listed, (List.range n).map listedInput, all2_map _ _ _ _ (fun j hj => listed_describes j (by have := List.mem_range.1 hj; omega)), ?_, ?_⟩
  · rw [List.length_map, List.length_range]; exact hn
  · rw [List.map_map]
    refine List.Nodup.map_on ?_ List.nodup_range
    intro a ha b hb e
    have := congrArg Prod.snd e
    simp only [Function.comp, refOf, listedInput, UInt16.toNat_ofNat'] at this
    have h1 := List.mem_range.1 ha
    have h2 := List.mem_range.1 hb
    rw [Nat.mod_eq_of_lt (by simp; omega), Nat.mod_eq_of_lt (by simp; omega)] at this
    exact this

/-- C118: a service with pages. -/
example (us : List Utxo) : ∃ query : Server → Bytes → APIQueryParams → Res (List Utxo), ∀ s a q, query s a q = .ok (paged us q) := ⟨fun _ _ q => .ok (paged us q), fun _ _ _ => rfl⟩

/-- C118: one can walk through the pages, so the outputs that are missing could be had. -/
example (us : List Utxo) : paged us { page := 2 } = (us.drop 100).take 100 := rfl

/-- C119: main net and test net. -/
example : (TestNet.networkId = 0 ↔ MainNet.networkId ≠ 0) ∧ (MainNet.networkId = 0 ↔ TestNet.networkId ≠ 0) := by decide

/-- C117: the session of C108 is built, encoded, read by the ledger and has an output; a builder takes an input made from any answer in JSON, and finishes. -/
example (H : Hashes) (hH : H.Ok) (blake256 : Bytes → Bytes) (h256 : ∀ m, (blake256 m).length = 32) (id : Bytes) :
    (∃ (s : Session) (t : Tx) (bs : Bytes) (v : TxView) (o : Out), s.Fits ∧ Built (packageCrypto H blake256) s.builder s.change [] t bs ∧ (∃ k, Transaction.bytes (packageCrypto H blake256) t k = .ok bs) ∧ read bs = some v ∧
      v.outputs[0]? = some o) ∧
    ∃ (b : Builder) (bs : Bytes), NewTxInput (34 :: (Hex.encode id ++ [34])) 0 10000000 ∈ b.body.inputs ∧ BuilderFits b ∧ Finishes (packageCrypto H blake256) b bs := by
  constructor
  · obtain ⟨pk, t, bs, hpk, ho, hp⟩ := chain_sample H hH blake256
    obtain ⟨v, -, hv, -⟩ := C108_payment H hH toGolden blake256 h256 sampleKey pk 1 0 _ _ _ t bs sampleKey_ok hpk ho (by decide) hp
    have hf := sample_fits [sampleKey] (by decide) 10000000 5000000 sampleAddr (by exact (by decide +kernel : (Addr.bytes sampleAddr).length < 2 ^ 63))
    obtain ⟨-, ⟨c, -, e⟩, -⟩ := session_read H hH blake256 h256 _ _ bs hf ⟨t, hp.built, rfl⟩ v hv
    obtain ⟨h, b', k, -, ev, eb⟩ := hp.built.run
    refine ⟨_, t, bs, v, outOf ⟨.base MainNet goldenPayment goldenStake, 5000000⟩, hf, hp.built, ⟨k, eb⟩, hv, ?_⟩
    rw [e]; rfl
  · have hi : (NewTxInput (34 :: (Hex.encode id ++ [34])) 0 10000000).txHash = [] := by
      obtain ⟨d, s, e⟩ : ∃ d s, Hex.encode id ++ [34] = d :: s := by
        cases Hex.encode id with
        | nil => exact ⟨_, _, rfl⟩
        | cons a l => exact ⟨a, _, rfl⟩
      rw [e, (C31_malformed_hex_accepted 34 d s (by decide) 0 10000000).1]
    obtain ⟨bs, hy⟩ := finish_succeeds H hH blake256 (AddInputs (NewTxBuilder ⟨44, 155381, 16384, 1000000⟩ [sampleKey]) [NewTxInput (34 :: (Hex.encode id ++ [34])) 0 10000000]) (.inl rfl)
      (fun o h => absurd h List.not_mem_nil) (by intro k h; rw [List.mem_singleton.1 (show k ∈ [sampleKey] from h)]; exact sampleKey_ok)
    refine ⟨AddInputs (NewTxBuilder ⟨44, 155381, 16384, 1000000⟩ [sampleKey]) [NewTxInput (34 :: (Hex.encode id ++ [34])) 0 10000000], bs, List.mem_singleton.2 rfl, ⟨(by decide : 1 < 2 ^ 63), (by decide : 0 < 2 ^ 63), (by decide : 1 < 2 ^ 63), ?_, fun o h => absurd h List.not_mem_nil,
      (by decide : 0 < 2 ^ 63), .inl rfl⟩, hy⟩
    intro i h
    rw [List.mem_singleton.1 (show i ∈ [NewTxInput (34 :: (Hex.encode id ++ [34])) 0 10000000] from h), hi]
    decide

/-- C117: the command line tool, an operating system in which everything succeeds. -/
example (C : Crypto) (net : NetworkInfo) (t : Tx) (k : Nat) (bs : Bytes) (hb : Transaction.hex C t k = .ok bs) :
    ∃ os, (∀ data args, os.run [] data args = .ok (asc ['T','r','a','n','s','a','c','t','i','o','n',' ','s','u','c','c','e','s','s','f','u','l','l','y',' ','s','u','b','m','i','t','t','e','d','.'])) ∧
      (cliSubmit C os [] net t k).1 = (asc ['T','r','a','n','s','a','c','t','i','o','n',' ','s','u','c','c','e','s','s','f','u','l','l','y',' ','s','u','b','m','i','t','t','e','d','.'], none) := by
  refine ⟨⟨.ok [], none, fun _ _ _ => .ok _, none⟩, fun _ _ => rfl, ?_⟩
  unfold cliSubmit
  rw [hb]

end Cardano.Props
