import Verif.Examples.Model
import Verif.Props.Ledger
import Verif.Props.Formats
import Verif.Props.Node
/-!
# Properties C90 to C94: the example programs
-/
set_option autoImplicit false

namespace Cardano.Props
open Cbor TxSpec Transaction TxBuilder Addr Bip32 Node Examples Cardano.Spec
open Ledger (read refOf outOf Env UTxO OutputAddress)

/-! ### The wallet -/

/-- The programs with the key functions of the package; the hash functions are parameters. -/
def libs (H : Hashes) (blake224 blake256 : Bytes → Bytes) : Libs := ⟨H, blake224, packageCrypto H blake256⟩

/-- CIP-1852: the key with its public key at m/1852'/1815'/0'/role/0. -/
def AtPath (H : Hashes) (root : Bytes) (role : UInt32) (key pub : Bytes) : Prop :=
  derivePath H makePublicKey root [2147485500, 2147485463, 2147483648, role, 0] = .ok key ∧ MakePublicKey key = .ok pub ∧
    key.length = 96 ∧ leNat (key.take 32) < 2 ^ 255

/-- The payment key (role 0) of the account, and its base address (type 0, stake key of role 2) on a network (1 main, 0 test). -/
structure Wallet (H : Hashes) (blake224 : Bytes → Bytes) (root : Bytes) (net : UInt8) (key pub addr : Bytes) : Prop where
  payment : AtPath H root 0 key pub
  base : ∃ skey spub, AtPath H root 2 skey spub ∧ addr = net :: (blake224 pub ++ blake224 spub)

theorem derivePath_append (H : Hashes) (pub : Bytes → Bytes) (p q : List UInt32) : ∀ key, derivePath H pub key (p ++ q) = derivePath H pub key p >>= fun k => derivePath H pub k q := by
  induction p with
  | nil => intro key; rfl
  | cons i p ih =>
    intro key
    rw [List.cons_append, derivePath, derivePath]
    cases Derive H pub key i with
    | ok k => simp only [Res.ok_bind]; exact ih k
    | err m => rfl
    | panic => rfl

theorem harden_spec : harden 1852 = 2147485500 ∧ harden 1815 = 2147485463 ∧ harden 0 = 2147483648 := by decide

theorem keyHash_of (H : Hashes) (blake224 blake256 : Bytes → Bytes) (h224 : ∀ m, (blake224 m).length = 28) (key : Bytes) (hk : key.length = 96)
    (hs : leNat (key.take 32) < 2 ^ 255) : ∃ pub, MakePublicKey key = .ok pub ∧ (packageCrypto H blake256).publicKey key = .ok pub ∧
      keyHash (libs H blake224 blake256) key = .ok (blake224 pub) := by
  obtain ⟨pk, x, h1, h2, h3, -⟩ := C36_public_key key hk hs
  refine ⟨pk, h1, by rw [packageCrypto_publicKey H blake256 key hk hs, h1], ?_⟩
  unfold keyHash
  rw [h2]; simp only [Res.ok_bind]
  rw [h3]; simp only [Res.ok_bind, Bip32.Hash]
  show Res.ok ((blake224 pk).take 28) = _
  rw [List.take_of_length_le (by rw [h224])]

/-- The key of the account and the two keys below it. -/
theorem account_keys (H : Hashes) (hH : H.Ok) (root : Bytes) (hr : Clamped root) :
    ∃ account, derivePath H makePublicKey root [harden 1852, harden 1815, harden 0] = .ok account ∧ account.length = 96 ∧ leNat (account.take 32) < 2 ^ 255 ∧
      ∀ role, ∃ key pub, derivePath H makePublicKey account [role, 0] = .ok key ∧ AtPath H root role key pub := by
  obtain ⟨h1, h2, h3⟩ := harden_spec
  rw [h1, h2, h3]
  obtain ⟨acc, ea, la, -, -, sa⟩ := C34_path_scalars H hH makePublicKey root hr [2147485500, 2147485463, 2147483648] (by decide)
  refine ⟨acc, ea, la, sa, fun role => ?_⟩
  obtain ⟨key, ek, lk, -, -, sk⟩ := C34_path_scalars H hH makePublicKey root hr [2147485500, 2147485463, 2147483648, role, 0] (by simp only [List.length_cons, List.length_nil]; decide)
  obtain ⟨pub, _, hp, -⟩ := C36_public_key key lk sk
  refine ⟨key, pub, ?_, ek, hp, lk, sk⟩
  have := derivePath_append H makePublicKey [2147485500, 2147485463, 2147483648] [role, 0] root
  rw [ea] at this
  exact this.symm.trans ek

theorem wallet_of (H : Hashes) (hH : H.Ok) (blake224 blake256 : Bytes → Bytes) (h224 : ∀ m, (blake224 m).length = 28) (root : Bytes) (hr : Clamped root) (main : Bool) :
    ∃ key pub skey spub, AtPath H root 0 key pub ∧ AtPath H root 2 skey spub ∧ (packageCrypto H blake256).publicKey key = .ok pub ∧
      generateBaseAddress (libs H blake224 blake256) (cip19Net main) root =
        .ok (NewBaseAddress (cip19Net main) (credFor false (blake224 pub)) (credFor false (blake224 spub)), key) := by
  obtain ⟨acc, ea, -, -, hk⟩ := account_keys H hH root hr
  obtain ⟨key, pub, ek, pk⟩ := hk 0
  obtain ⟨skey, spub, es, ps⟩ := hk 2
  obtain ⟨pub', p1, p2, p3⟩ := keyHash_of H blake224 blake256 h224 key pk.2.2.1 pk.2.2.2
  obtain ⟨spub', s1, s2, s3⟩ := keyHash_of H blake224 blake256 h224 skey ps.2.2.1 ps.2.2.2
  have e1 := pk.2.1
  rw [p1] at e1
  injection e1 with e1
  subst e1
  have e2 := ps.2.1
  rw [s1] at e2
  injection e2 with e2
  subst e2
  refine ⟨key, _, skey, _, pk, ps, p2, ?_⟩
  unfold generateBaseAddress
  rw [show (libs H blake224 blake256).H = H from rfl, ea]
  simp only [Res.ok_bind]
  rw [ek]
  simp only [Res.ok_bind, p3, es, s3]
  rfl

/-! ### What the transfer does -/

/-- The session of the transfer. -/
def transferSession (p : Protocol) (key : Bytes) (i : TxInput) (recv source : Address) (ttl : UInt32) : Session :=
  ⟨p, [key], [i], [⟨recv, 5000000⟩], ttl, none, source⟩

theorem bytes_none (C : Crypto) (t : Tx) (k k' : Nat) (h : t.metadata = none) : Transaction.bytes C t k = Transaction.bytes C t k' := by
  unfold Transaction.bytes calcAux marshalTx marshalMetadata
  simp only [h]

theorem submit_of (L : Libs) (b b' : Builder) (h : Handle) (k : Nat) (bs projectId : Bytes) (e : Build L.C b = (.ok h, b'))
    (hmeta : (view b' h).metadata = none) (eb : Transaction.bytes L.C (view b' h) k = .ok bs) (post : Request → Res Response) :
    ((Build L.C b).1 >>= fun txFinal => bfSubmitTx L.C post TestNet projectId (view (Build L.C b).2 txFinal) (Build L.C b).2.clock >>= fun x =>
      if x.2 = true then Res.err "submission failed" else pure x.1) =
      post ⟨.testNet, projectId, bs⟩ >>= fun r => if r.status ≠ 200 then .err "submission failed" else .ok r.body := by
  rw [e]
  simp only [Res.ok_bind]
  unfold bfSubmitTx
  rw [bytes_none L.C _ b'.clock k hmeta, eb]
  simp only [Res.ok_bind]
  rw [show getNetwork TestNet = .testNet from rfl]
  cases post ⟨.testNet, projectId, bs⟩ with
  | err m => rfl
  | panic => rfl
  | ok r =>
    simp only [Res.ok_bind]
    by_cases c : r.status = 200
    · simp only [c]; rfl
    · simp [c, Res.ok_bind]

theorem transfer_run (L : Libs) (w : World) (strict : Bool) (spare projectId mnemonic sendTo : Bytes)
    (p : EpochParameters) (q : FullProtocol) (root text key : Bytes) (source recv : Address) (ins : List TxInput) (blk : Block) (fee : Nat) (bs : Bytes)
    (hm : mnemonic.count 32 = 23) (hp : w.params .testNet = .ok p) (hq : convertParams p = .ok q)
    (hr : createRootKey L w mnemonic = .ok root) (hg : generateBaseAddress L TestNet root = .ok (source, key)) (ht : Addr.string source = .ok text)
    (hrecv : Addr.NewAddress strict (if sendTo = [] then text else sendTo) spare = .ok recv)
    (hu : bfUTXOs w.utxos TestNet text = .ok ins) (htip : w.tip .testNet = .ok blk)
    (hy : (transferSession q.params key (pick ins zeroInput) recv source ((convertTip blk).slot.toUInt32 + 300)).Yields L.C fee bs)
    (post : Request → Res Response) :
    transfer L { w with post := post } strict spare projectId mnemonic sendTo =
      post ⟨.testNet, projectId, bs⟩ >>= fun r => if r.status ≠ 200 then .err "submission failed" else .ok r.body := by
  have hne : mnemonic ≠ [] := by rintro rfl; simp at hm
  obtain ⟨t, ⟨h, b', k, e, hv, eb⟩, -⟩ := hy
  have hmeta : t.metadata = none := by
    obtain ⟨body, bb, ws, -, -, -, h4, h5⟩ := build_ok L.C _ b' h e
    rw [← hv, view_build _ b' h body ws h4 h5]; rfl
  have e : Build L.C (AddChangeIfNeeded L.C
      (SetTTL (AddOutputs (AddInputs (NewTxBuilder q.params [key]) [pick ins zeroInput]) [⟨recv, 5000000⟩]) ((convertTip blk).slot.toUInt32 + 300)) source) = (.ok h, b') := e
  unfold transfer checkMnemonic
  rw [if_neg hne, if_neg (by omega)]
  simp only [Res.ok_bind]
  rw [show clientServer TestNet = .testNet from rfl, hp]
  simp only [Res.ok_bind, hq]
  rw [show createRootKey L { w with post := post } mnemonic = createRootKey L w mnemonic from rfl, hr]
  simp only [Res.ok_bind, hg]
  have key : ∀ {α : Type} (x y z : Res α), (sendTo = [] → x = z) → (sendTo ≠ [] → y = z) → (if sendTo = [] then x else y) = z := by
    intro α x y z h1 h2
    split
    · exact h1 ‹_›
    · exact h2 ‹_›
  refine key _ _ _ (fun c => ?_) (fun c => ?_) <;>
  [rw [if_pos c] at hrecv; rw [if_neg c] at hrecv] <;>
  simp only [Res.ok_bind, hrecv, ht, hu, htip] <;>
  exact submit_of L _ b' h k bs projectId e (by rw [hv]; exact hmeta) (by rw [hv]; exact eb) post

/-! ### Coin selection -/

/-- **C91 (selection).** If some output of the wallet has at least 6.2 ada, the transfer spends the *last* such one (the comment in the program says the first);
otherwise it spends the zero value of an input. -/
theorem C91_selection (ins : List TxInput) (i0 : TxInput) :
    (∃ pre i post, ins = pre ++ i :: post ∧ 6200000 ≤ i.amount.toNat ∧ (∀ j ∈ post, j.amount.toNat < 6200000) ∧ pick ins i0 = i) ∨
    ((∀ j ∈ ins, j.amount.toNat < 6200000) ∧ pick ins i0 = i0) := by
  induction ins generalizing i0 with
  | nil => exact .inr ⟨nofun, rfl⟩
  | cons x ins ih =>
    rw [pick]
    have hx : (x.amount ≥ 5000000 + 1000000 + 200000) ↔ 6200000 ≤ x.amount.toNat := by
      show (5000000 + 1000000 + 200000 : UInt64) ≤ _ ↔ _
      rw [UInt64.le_iff_toNat_le]; rfl
    rcases ih (if x.amount ≥ 5000000 + 1000000 + 200000 then x else i0) with ⟨pre, i, post, e, h1, h2, h3⟩ | ⟨h1, h2⟩
    · exact .inl ⟨x :: pre, i, post, by rw [e]; rfl, h1, h2, h3⟩
    · rw [h2]
      by_cases c : 6200000 ≤ x.amount.toNat
      · rw [if_pos (hx.2 c)]
        exact .inl ⟨[], x, ins, rfl, c, h1, rfl⟩
      · rw [if_neg (fun h => c (hx.1 h))]
        refine .inr ⟨fun j hj => ?_, rfl⟩
        rcases List.mem_cons.1 hj with rfl | hj
        · omega
        · exact h1 j hj

/-- Three suitable outputs: the last is spent, not the first. -/
example : pick [⟨[1], 0, 7000000⟩, ⟨[2], 0, 9000000⟩, ⟨[3], 0, 8000000⟩, ⟨[4], 0, 6000000⟩] zeroInput = ⟨[3], 0, 8000000⟩ := by decide

/-! ### The fee of the transfer -/

theorem innerAddr_length : ∃ ab, marshalAddress innerAddr = .ok ab ∧ ab.length = 59 := by
  have : sizeOf? (marshalAddress innerAddr) = some 59 := by decide +kernel
  cases e : marshalAddress innerAddr with
  | ok ab => rw [e] at this; injection this with this; exact ⟨ab, rfl, this⟩
  | err m => rw [e] at this; cases this
  | panic => rw [e] at this; cases this

theorem output_length (a : Address) (n : UInt64) (ab : Bytes) (h : marshalAddress a = .ok ab) :
    ∃ o, marshalOutput ⟨a, n⟩ = .ok o ∧ o.length = 1 + ab.length + uintSize n.toNat := by
  refine ⟨encArray [ab, encUint n], by unfold marshalOutput; rw [h]; rfl, ?_⟩
  simp only [encArray, List.length_append, encHead_length, List.length_cons, List.length_nil, List.flatten_cons, List.flatten_nil, encUint_length]
  have : uintSize (UInt64.ofNat (0 + 1 + 1)).toNat = 1 := by decide
  omega

theorem input_length (i : TxInput) (h : i.txHash.length ≤ 32) : (encArray ([i].map marshalInput)).length ≤ 39 := by
  have e : marshalInput i = encArray [encBytes i.txHash, encUint (UInt64.ofNat i.index.toNat)] := rfl
  rw [List.map_cons, List.map_nil, e]
  simp only [encArray, List.length_append, encHead_length, List.length_cons, List.length_nil, List.flatten_cons, List.flatten_nil, encUint_length, encBytes_length _ (show i.txHash.length < 2 ^ 64 by omega)]
  have h1 : uintSize (UInt64.ofNat (0 + 1 + 1)).toNat = 1 := by decide
  have h2 : uintSize (UInt64.ofNat (0 + 1)).toNat = 1 := by decide
  have h3 : uintSize i.txHash.length ≤ 2 := by
    unfold uintSize; repeat' split
    all_goals omega
  have h4 : uintSize (UInt64.ofNat i.index.toNat).toNat ≤ 3 := by
    have := UInt16.toNat_lt i.index
    have e : (UInt64.ofNat i.index.toNat).toNat = i.index.toNat := by rw [UInt64.toNat_ofNat', Nat.mod_eq_of_lt (by omega)]
    rw [e]
    unfold uintSize; repeat' split
    all_goals omega
  omega

/-- The fee is the linear formula on at most 400 bytes, and the bytes are at most 400. -/
theorem transfer_fee (H : Hashes) (hH : H.Ok) (blake256 : Bytes → Bytes) (h256 : ∀ m, (blake256 m).length = 32) (p : Protocol) (key : Bytes) (i : TxInput)
    (recv source : Address) (ttl : UInt32) (ab sb : Bytes) (hi : i.txHash.length ≤ 32) (ha : marshalAddress recv = .ok ab) (hal : ab.length ≤ 59)
    (hs : marshalAddress source = .ok sb) (hsl : sb.length ≤ 59) (hpar : p.txFeePerByte.toNat * 400 + p.txFeeFixed.toNat < 2 ^ 64)
    (fee : Nat) (bs : Bytes) (hy : (transferSession p key i recv source ttl).Yields (packageCrypto H blake256) fee bs) :
    (∃ n, n ≤ 400 ∧ fee = p.txFeePerByte.toNat * n + p.txFeeFixed.toNat) ∧ bs.length ≤ 400 := by
  have hf := yields_fee _ _ _ _ (.inl rfl) hy
  have ht : (if ttl = 0 then 0 else 1 + uintSize ttl.toNat) ≤ 10 := by
    have := uintSize_le ttl.toNat
    split <;> omega
  have hin := input_length i hi
  constructor
  · set b := (transferSession p key i recv source ttl).builder with hb
    obtain ⟨o1, e1, l1⟩ := output_length recv 5000000 ab ha
    obtain ⟨ib, eib, lib⟩ := innerAddr_length
    obtain ⟨o2, e2, l2⟩ := output_length innerAddr (totalIn b.body.inputs - totalOut b.body.outputs - 200000) ib eib
    have u2 := uintSize_le (totalIn b.body.inputs - totalOut b.body.outputs - 200000).toNat
    have u1 : uintSize (5000000 : UInt64).toNat = 5 := by decide
    have houts : ∃ outs, collect ((feeOuts b).map marshalOutput) = .ok outs ∧ (encArray outs).length ≤ 140 := by
      have eO : b.body.outputs = [⟨recv, 5000000⟩] := rfl
      unfold feeOuts
      by_cases c : totalIn b.body.inputs ≠ totalOut b.body.outputs
      · rw [if_pos c, eO]
        refine ⟨[o1, o2], ?_, ?_⟩
        · rw [eO] at e2
          simp only [List.singleton_append, List.map_cons, List.map_nil, collect, e1, e2, Res.ok_bind]; rfl
        · simp only [encArray, List.length_append, encHead_length, List.length_cons, List.length_nil, List.flatten_cons, List.flatten_nil]
          have : uintSize (UInt64.ofNat (0 + 1 + 1)).toNat = 1 := by decide
          omega
      · rw [if_neg c, eO]
        refine ⟨[o1], ?_, ?_⟩
        · simp only [List.map_cons, List.map_nil, collect, e1, Res.ok_bind]; rfl
        · simp only [encArray, List.length_append, encHead_length, List.length_cons, List.length_nil, List.flatten_cons, List.flatten_nil]
          have : uintSize (UInt64.ofNat (0 + 1)).toNat = 1 := by decide
          omega
    obtain ⟨outs, eo, lo⟩ := houts
    obtain ⟨len1, len2, fee1, -, f2, base, hbase, -, hl2⟩ := minFee_of (packageCrypto H blake256) h256 b 1 outs (fun k => ⟨encNil, rfl, rfl⟩) eo
    have u3 := uintSize_le fee1.toNat
    have hw : (marshalWitness (feeWits b)).length = 104 := by
      rw [show feeWits b = [dummyWitness] from rfl]; decide +kernel
    have hbase : base = 6 + (encArray ([i].map marshalInput)).length + (encArray outs).length + (if ttl = 0 then 0 else 1 + uintSize ttl.toNat) + 0 +
      (marshalWitness (feeWits b)).length + 1 := hbase
    have hle : len2 ≤ 400 := by omega
    refine ⟨len2, hle, ?_⟩
    have f2 : (MinFee (packageCrypto H blake256) b).1 = p.txFeeFixed + p.txFeePerByte * UInt64.ofNat len2 := f2
    have hmul := Nat.mul_le_mul_left p.txFeePerByte.toNat hle
    have := toNat_formula p.txFeeFixed p.txFeePerByte len2 (by omega) (by omega)
    rw [hf, f2, this]
    omega
  · obtain ⟨t, hbt, -⟩ := hy
    obtain ⟨hbody, hval, body, h1, h2, h3⟩ := built_parts (packageCrypto H blake256) _ _ _ t bs encNil hbt (fun _ => rfl)
    have hwl := witnessesOf_lengths _ (package_key_length H blake256) (package_sig_length H hH blake256) _ _ _ h3
    have hw1 : t.witness.length = 1 := hwl.1
    have hw := witness_length t.witness hwl.2 (by omega)
    rw [hw1, show (if (1 : Nat) = 0 then 1 else 2 + uintSize 1 + 101 * 1) = 104 by decide] at hw
    have tx0 : t.body.auxHash = [] := by rw [hbody]; rfl
    obtain ⟨outs, ho, hl⟩ := body_length _ _ h1 (.inl tx0)
    have tI : t.body.inputs = [i] := by rw [hbody]; rfl
    have tT : t.body.ttl = ttl := by rw [hbody]; rfl
    obtain ⟨c, tO⟩ : ∃ c, t.body.outputs = [⟨recv, 5000000⟩, ⟨source, c⟩] := ⟨_, by rw [hbody]; rfl⟩
    obtain ⟨o1, e1, l1⟩ := output_length recv 5000000 ab ha
    obtain ⟨o2, e2, l2⟩ := output_length source c sb hs
    have u1 : uintSize (5000000 : UInt64).toNat = 5 := by decide
    have u2 := uintSize_le c.toNat
    have u3 := uintSize_le t.body.fee.toNat
    have eo : outs = [o1, o2] := by
      rw [tO] at ho
      simp only [List.map_cons, List.map_nil, collect, e1, e2, Res.ok_bind] at ho
      injection ho with ho; exact ho.symm
    have lo : (encArray outs).length ≤ 140 := by
      rw [eo]
      simp only [encArray, List.length_append, encHead_length, List.length_cons, List.length_nil, List.flatten_cons, List.flatten_nil]
      have : uintSize (UInt64.ofNat (0 + 1 + 1)).toNat = 1 := by decide
      omega
    rw [tI, tT, tx0, if_pos rfl] at hl
    have hbl : (encBool t.valid).length = 1 := by rw [hval]; rfl
    have hn : encNil.length = 1 := rfl
    rw [h2, List.length_cons, List.length_append, List.length_append, List.length_append, hbl, hn, hw]
    omega

/-! ### C90: the transfer, end to end -/

/-- "addr_test" -/
def testPrefix : Bytes := asc ['a','d','d','r','_','t','e','s','t']

/-- `text` is the BIP-173 text of the base or enterprise address `a` of the test network, with key or script credentials (CIP-19). -/
def TestAddress (a text : Bytes) : Prop :=
  IsBech32 testPrefix a text ∧
    ((∃ (sp ss : Bool) (p s : Bytes), p.length = 28 ∧ s.length = 28 ∧ a = cip19Header (sp.toNat + 2 * ss.toNat) false :: (p ++ s)) ∨
     ∃ (sp : Bool) (p : Bytes), p.length = 28 ∧ a = cip19Header (6 + sp.toNat) false :: p)

/-- What the service reports about the test network is true: the parameters, the unspent outputs of the address with this text, and the slot of the tip. -/
structure Truthful (w : World) (e : Env) (u : UTxO) (addr text : Bytes) (ins : List TxInput) (tip : Nat) : Prop where
  params : ∃ p, w.params .testNet = .ok p ∧ p.minFeeA = e.minFeeA ∧ p.minFeeB = e.minFeeB ∧ p.maxTxSize = e.maxTxSize ∧
    p.minUtxo ≠ [] ∧ Digits p.minUtxo ∧ decFrom 0 p.minUtxo = e.minUTxOValue
  utxos : ∃ us, w.utxos .testNet text = .ok us ∧ All2 Describes us ins
  unspent : ∀ i ∈ ins, i.txHash.length = 32 ∧ u (refOf i) = some (addr, i.amount.toNat)
  slot : ∃ b, w.tip .testNet = .ok b ∧ b.slot = tip

/-- Parameters like those in use. -/
structure Usual (e : Env) : Prop where
  network : e.network = 0
  fixed : 65536 ≤ e.minFeeB
  fee : e.minFeeA * 400 + e.minFeeB ≤ 200000
  minimum : 0 < e.minUTxOValue ∧ e.minUTxOValue ≤ 1000000
  size : 400 ≤ e.maxTxSize ∧ e.maxTxSize ≤ 16384

theorem lower_test : LowerHrp testPrefix := ⟨by decide, by decide⟩

theorem bech32_unique (h d s t : Bytes) (hh : LowerHrp h) (hs : IsBech32 h d s) (ht : IsBech32 h d t) : s = t := by
  have e1 := (C67_encode_iff_bip173 h d s hh).2 hs
  have e2 := (C67_encode_iff_bip173 h d t hh).2 ht
  rw [e1] at e2
  injection e2

theorem credFor_ok (b : Bool) (h : Bytes) (hl : h.length = 28) : CredOk (credFor b h) := by
  cases b
  · exact ⟨.inl rfl, hl⟩
  · exact ⟨.inr rfl, hl⟩

theorem text_of (a : Address) (ha : ShelleyOk a) (hp : ∀ n p s, a ≠ .pointer n p s) (ht : ∃ t, Addr.string a = .ok t ∧ IsBech32 testPrefix (Addr.bytes a) t)
    (text : Bytes) (h : IsBech32 testPrefix (Addr.bytes a) text) :
    Addr.string a = .ok text ∧ ∀ strict spare, Addr.NewAddress strict text spare = .ok a := by
  obtain ⟨t, e, hb⟩ := ht
  have := bech32_unique _ _ _ _ lower_test hb h
  subst this
  refine ⟨e, fun strict spare => ?_⟩
  obtain ⟨s, h1, -, h2⟩ := C02_string_roundtrip_partial strict a spare ha hp
  rw [e] at h1
  injection h1 with h1
  rw [h1]; exact h2

theorem base_facts (sp ss : Bool) (p s : Bytes) (hp : p.length = 28) (hs : s.length = 28) (text : Bytes)
    (h : IsBech32 testPrefix (cip19Header (sp.toNat + 2 * ss.toNat) false :: (p ++ s)) text) :
    let a := NewBaseAddress (cip19Net false) (credFor sp p) (credFor ss s)
    Addr.bytes a = cip19Header (sp.toNat + 2 * ss.toNat) false :: (p ++ s) ∧
    (Addr.string a = .ok text ∧ ∀ strict spare, Addr.NewAddress strict text spare = .ok a) ∧
    (∃ ab, marshalAddress a = .ok ab ∧ ab.length = 59) ∧ Receives 0 (Addr.bytes a) := by
  intro a
  have hb := (C65_constructed_bytes false sp ss p s hp hs 0 0 0).1
  have hok : ShelleyOk a := ⟨.inr rfl, credFor_ok sp p hp, credFor_ok ss s hs⟩
  refine ⟨hb, text_of a hok nofun ((C65_constructed_text false sp ss p s).1 a (.inl rfl)) text (by rw [hb]; exact h), ⟨encBytes (Addr.bytes a), rfl, ?_⟩, ?_⟩
  · rw [encBytes_length _ (by rw [hb]; simp [hp, hs]), hb]
    simp [hp, hs]; decide
  · rw [hb]
    refine ⟨⟨_, _, rfl, .inl ⟨?_, by simp [hp, hs]⟩⟩, _, _, rfl, ?_⟩ <;> (cases sp <;> cases ss <;> decide)

theorem testAddress_parse (a text : Bytes) (h : TestAddress a text) :
    ∃ addr, (∀ strict spare, Addr.NewAddress strict text spare = .ok addr) ∧ Addr.bytes addr = a ∧
      (∃ ab, marshalAddress addr = .ok ab ∧ ab.length ≤ 59) ∧ Receives 0 a := by
  obtain ⟨hb, ⟨sp, ss, p, s, hp, hs, rfl⟩ | ⟨sp, p, hp, rfl⟩⟩ := h
  · obtain ⟨h1, h2, ⟨ab, h3, h4⟩, h5⟩ := base_facts sp ss p s hp hs text hb
    rw [h1] at h5
    exact ⟨_, h2.2, h1, ⟨ab, h3, by omega⟩, h5⟩
  · have hby := (C65_constructed_bytes false sp false p p hp hp 0 0 0).2.1
    have hok : ShelleyOk (NewEnterpriseAddress (cip19Net false) (credFor sp p)) := ⟨.inr rfl, credFor_ok sp p hp⟩
    obtain ⟨-, h2⟩ := text_of _ hok nofun ((C65_constructed_text false sp false p p).1 _ (.inr rfl)) text (by rw [hby]; exact hb)
    refine ⟨_, h2, hby, ⟨encBytes (Addr.bytes (NewEnterpriseAddress (cip19Net false) (credFor sp p))), rfl, ?_⟩, ?_⟩
    · rw [encBytes_length _ (by rw [hby]; simp [hp]), hby]
      simp [hp]; decide
    · refine ⟨⟨_, _, rfl, .inr (.inr ⟨?_, ?_, by simp [hp]⟩)⟩, _, _, rfl, ?_⟩ <;> (cases sp <;> decide)

theorem params_of (p : EpochParameters) (e : Env) (h1 : p.minFeeA = e.minFeeA) (h2 : p.minFeeB = e.minFeeB) (h3 : p.maxTxSize = e.maxTxSize)
    (h4 : p.minUtxo ≠ []) (h5 : Digits p.minUtxo) (h6 : decFrom 0 p.minUtxo = e.minUTxOValue) (hu : Usual e) :
    ∃ q, convertParams p = .ok q ∧ envOf q.params 0 e.slot = e := by
  have := hu.fee
  have := hu.minimum
  have := hu.size
  unfold convertParams
  rw [Atoi_digits _ h4 h5 (by omega), Res.ok_bind]
  have k : ∀ n : Nat, n < 2 ^ 63 → (toUint n).toNat = n := by
    intro n hn
    have := toNat_toUint n
    omega
  refine ⟨_, rfl, ?_⟩
  unfold envOf
  dsimp only
  rw [h1, h2, h3, h6, k _ (by omega), k _ (by omega), k _ (by omega), k _ (by omega), ← hu.network]

/-- The part that does not depend on the amounts. -/
theorem transfer_session (H : Hashes) (hH : H.Ok) (blake224 blake256 : Bytes → Bytes) (h224 : ∀ m, (blake224 m).length = 28)
    (h256 : ∀ m, (blake256 m).length = 32) (w : World) (strict : Bool) (spare projectId mnemonic sendTo entropy : Bytes)
    (hm : mnemonic.count 32 = 23) (he : (w.entropy mnemonic).getD [] = entropy)
    (root key pub addr text : Bytes) (hroot : FromBip39Entropy H entropy [] = .ok root) (hw : Wallet H blake224 root 0 key pub addr)
    (htext : IsBech32 testPrefix addr text) (e : Env) (u : UTxO) (ins : List TxInput) (tip : Nat) (hs : Truthful w e u addr text ins tip) (hus : Usual e)
    (recv : Bytes) (hrecv : if sendTo = [] then recv = addr else TestAddress recv sendTo) (hid : (pick ins zeroInput).txHash.length ≤ 32) :
    ∃ (q : Protocol) (ra sa : Address) (ttl : UInt32) (fee : Nat) (bs : Bytes),
      (∀ post, transfer (libs H blake224 blake256) { w with post := post } strict spare projectId mnemonic sendTo =
        post ⟨.testNet, projectId, bs⟩ >>= fun r => if r.status ≠ 200 then .err "submission failed" else .ok r.body) ∧
      (transferSession q key (pick ins zeroInput) ra sa ttl).Yields (packageCrypto H blake256) fee bs ∧
      envOf q 0 e.slot = e ∧ ttl.toNat = (tip + 300) % 2 ^ 32 ∧ Addr.bytes ra = recv ∧ Addr.bytes sa = addr ∧ Receives 0 recv ∧ Receives 0 addr ∧
      (∃ sb, marshalAddress sa = .ok sb ∧ sb.length = 59) ∧
      65536 ≤ fee ∧ fee ≤ e.minFeeA * 400 + e.minFeeB ∧ bs.length ≤ 400 ∧
      (packageCrypto H blake256).publicKey key = .ok pub ∧ PaysTo blake224 addr pub := by
  obtain ⟨p, p1, p2, p3, p4, p5, p6, p7⟩ := hs.params
  obtain ⟨us, u1, u2⟩ := hs.utxos
  obtain ⟨blk, b1, b2⟩ := hs.slot
  obtain ⟨q, q1, q2⟩ := params_of p e p2 p3 p4 p5 p6 p7 hus
  obtain ⟨root', r1, r2, -⟩ := C32_bip39_root_key H hH entropy []
  rw [hroot] at r1
  injection r1 with r1
  subst r1
  obtain ⟨key', pub', skey, spub, w1, w2, w3, w4⟩ := wallet_of H hH blake224 blake256 h224 root r2 false
  have k1 : key' = key := by
    have := w1.1
    rw [hw.payment.1] at this
    injection this with this
    exact this.symm
  subst k1
  have k2 : pub' = pub := by
    have := w1.2.1
    rw [hw.payment.2.1] at this
    injection this with this
    exact this.symm
  subst k2
  obtain ⟨skey', spub', s1, s2⟩ := hw.base
  have k3 : skey' = skey := by
    have := w2.1
    rw [s1.1] at this
    injection this
  subst k3
  have k4 : spub' = spub := by
    have := w2.2.1
    rw [s1.2.1] at this
    injection this
  subst k4
  have s2 : addr = cip19Header (false.toNat + 2 * false.toNat) false :: (blake224 pub' ++ blake224 spub') := s2
  obtain ⟨g1, ⟨g2, g3⟩, ⟨sb, g4, g5⟩, g6⟩ := base_facts false false (blake224 pub') (blake224 spub') (h224 _) (h224 _) text (by rw [← s2]; exact htext)
  generalize NewBaseAddress (cip19Net false) (credFor false (blake224 pub')) (credFor false (blake224 spub')) = sa at *
  rw [← s2] at g1
  rw [g1] at g6
  obtain ⟨ra, a1, a2, ⟨ab, a3, a4⟩, a5⟩ : ∃ ra, Addr.NewAddress strict (if sendTo = [] then text else sendTo) spare = .ok ra ∧ Addr.bytes ra = recv ∧
      (∃ ab, marshalAddress ra = .ok ab ∧ ab.length ≤ 59) ∧ Receives 0 recv := by
    by_cases c : sendTo = []
    · rw [if_pos c] at hrecv ⊢
      subst hrecv
      exact ⟨sa, g3 _ _, g1, ⟨sb, g4, by omega⟩, g6⟩
    · rw [if_neg c] at hrecv ⊢
      obtain ⟨ra, a1, a2, a3, a4⟩ := testAddress_parse recv sendTo hrecv
      exact ⟨ra, a1 _ _, a2, a3, a4⟩
  have hin := C46_utxos_partial w.utxos TestNet text us ins u1 u2
  have hcr : createRootKey (libs H blake224 blake256) w mnemonic = .ok root := by
    unfold createRootKey; rw [he]; exact hroot
  have hkey : ∀ k ∈ [key'], k.length = 96 ∧ leNat (k.take 32) < 2 ^ 255 := by
    intro k hk
    rw [List.mem_singleton.1 hk]; exact hw.payment.2.2
  obtain ⟨fee, bs, hy⟩ := C77_succeeds H hH blake256 (transferSession q.params key' (pick ins zeroInput) ra sa ((convertTip blk).slot.toUInt32 + 300)) (.inl rfl)
    (by intro o ho; rw [List.mem_singleton.1 ho]; exact ⟨ab, a3⟩) ⟨sb, g4⟩ hkey
  have hA : q.params.txFeePerByte.toNat = e.minFeeA := congrArg Env.minFeeA q2
  have hB : q.params.txFeeFixed.toNat = e.minFeeB := congrArg Env.minFeeB q2
  have := hus.fee
  have := hus.fixed
  obtain ⟨⟨n, n1, n2⟩, hlen⟩ := transfer_fee H hH blake256 h256 q.params key' (pick ins zeroInput) ra sa _ ab sb hid a3 a4 g4 (by omega) (by omega) fee bs hy
  have hmul := Nat.mul_le_mul_left e.minFeeA n1
  rw [hA, hB] at n2
  refine ⟨q.params, ra, sa, _, fee, bs, fun post => ?_, hy, q2, ?_, a2, g1, a5, g6, ⟨sb, g4, g5⟩, by omega, by omega, hlen, w3, ?_⟩
  · exact transfer_run (libs H blake224 blake256) w strict spare projectId mnemonic sendTo p q root text key' sa ra ins blk fee bs hm p1 q1 hcr w4 g2 a1 hin b1 hy post
  · rw [UInt32.toNat_add, UInt64.toNat_toUInt32]
    have h1 := toNat_toUint blk.slot
    have h2 : (convertTip blk).slot = toUint blk.slot := rfl
    rw [h2, show (300 : UInt32).toNat = 300 from rfl]
    rw [b2] at h1 ⊢
    omega
  · exact ⟨0, blake224 spub', s2, .inl rfl⟩

theorem transfer_fits (q : Protocol) (key : Bytes) (i : TxInput) (ra sa : Address) (ttl : UInt32) (hi : i.txHash.length ≤ 32)
    (h1 : OutputAddress (Addr.bytes ra)) (h2 : OutputAddress (Addr.bytes sa)) : (transferSession q key i ra sa ttl).Fits := by
  refine ⟨by show 1 < 2 ^ 63; decide, by show 1 < 2 ^ 32; decide, by show 1 < 2 ^ 63; decide, ?_, ?_, ?_, .inl rfl⟩
  · intro j hj; rw [List.mem_singleton.1 hj]; omega
  · intro o ho; rw [List.mem_singleton.1 ho]; exact outputAddress_fits ra h1
  · exact outputAddress_fits sa h2

/-- **C90 (partial).** The transfer, end to end. For a wallet given by a mnemonic the library accepts, a service that tells the truth about the test network,
parameters like those in use, an output of the wallet of at least 6.2 ada, and no receiver or a base or enterprise address of the test network as receiver:
the program posts one transaction to the test network, prints the answer or reports its failure, and the ledger accepts the transaction in every slot before `tip + 300`. It spends one
output of the wallet, pays 5 ada to the receiver and the rest, less a fee of at most 0.2 ada, back to the wallet, and expires at `tip + 300`. Missing: amounts close
above `2^32 + 5000000` (see the next theorem), tips of `2^32 - 300` and more (see C93), and outputs holding tokens (see C95). -/
theorem C90_transfer_accepted_partial (H : Hashes) (hH : H.Ok) (blake224 blake256 : Bytes → Bytes) (h224 : ∀ m, (blake224 m).length = 28)
    (h256 : ∀ m, (blake256 m).length = 32) (w : World) (strict : Bool) (spare projectId mnemonic sendTo entropy : Bytes)
    (hm : mnemonic.count 32 = 23) (he : w.entropy mnemonic = some entropy)
    (root key pub addr text : Bytes) (hroot : FromBip39Entropy H entropy [] = .ok root) (hw : Wallet H blake224 root 0 key pub addr)
    (htext : IsBech32 testPrefix addr text) (e : Env) (u : UTxO) (ins : List TxInput) (tip : Nat) (hs : Truthful w e u addr text ins tip) (hus : Usual e)
    (hslot : e.slot < tip + 300) (htip : tip + 300 < 2 ^ 32)
    (recv : Bytes) (hrecv : if sendTo = [] then recv = addr else TestAddress recv sendTo)
    (hrich : ∃ i ∈ ins, 6200000 ≤ i.amount.toNat)
    (hwin : ∀ i ∈ ins, i.amount.toNat < 2 ^ 32 + 5000000 ∨ 2 ^ 32 + 5200000 ≤ i.amount.toNat) :
    ∃ i bs v fee, i ∈ ins ∧ 6200000 ≤ i.amount.toNat ∧
      (∀ post, transfer (libs H blake224 blake256) { w with post := post } strict spare projectId mnemonic sendTo =
        post ⟨.testNet, projectId, bs⟩ >>= fun r => if r.status ≠ 200 then .err "submission failed" else .ok r.body) ∧
      read bs = some v ∧ Ledger.Accepts (ledgerCrypto H blake224 blake256) e u v ∧
      v.inputs = [refOf i] ∧ v.outputs = [(recv, 5000000), (addr, i.amount.toNat - 5000000 - fee)] ∧ v.fee = fee ∧ fee ≤ 200000 ∧
      v.ttl = some (tip + 300) ∧ v.aux = none := by
  obtain ⟨i, hi, hamt, hpick⟩ : ∃ i ∈ ins, 6200000 ≤ i.amount.toNat ∧ pick ins zeroInput = i := by
    rcases C91_selection ins zeroInput with ⟨pre, i, post, e1, h1, -, h3⟩ | ⟨h1, -⟩
    · exact ⟨i, by rw [e1]; simp, h1, h3⟩
    · obtain ⟨j, hj, hj'⟩ := hrich
      have := h1 j hj
      omega
  obtain ⟨hid, hun⟩ := hs.unspent i hi
  obtain ⟨q, ra, sa, ttl, fee, bs, r1, hy, hq, ht, b1, b2, c1, c2, ⟨sb, m1, m2⟩, f1, f2, hlen, hpk, hpay⟩ :=
    transfer_session H hH blake224 blake256 h224 h256 w strict spare projectId mnemonic sendTo entropy hm (by rw [he]; rfl) root key pub addr text hroot hw htext
      e u ins tip hs hus recv hrecv (by rw [hpick]; omega)
  rw [hpick] at hy
  have ha64 := UInt64.toNat_lt i.amount
  have hff := hus.fee
  have hwi := hwin i hi
  have hA : q.txFeePerByte.toNat = e.minFeeA := congrArg Env.minFeeA hq
  have hB : q.txFeeFixed.toNat = e.minFeeB := congrArg Env.minFeeB hq
  have hS : q.maxTxSize.toNat = e.maxTxSize := congrArg Env.maxTxSize hq
  have hU : q.minUTXOValue.toNat = e.minUTxOValue := congrArg Env.minUTxOValue hq
  have hmin := hus.minimum
  have hsz := hus.size
  rw [Nat.mod_eq_of_lt htip] at ht
  have sI : sumIn (transferSession q key i ra sa ttl).inputs = i.amount.toNat := by
    show (List.map _ [i]).sum = _; simp
  have sO : sumOut (transferSession q key i ra sa ttl).outputs = 5000000 := rfl
  have hwid : uintSize (i.amount.toNat - 5000000 - fee) ≤ uintSize (i.amount.toNat - 5000000 - 200000) := by
    unfold uintSize; repeat' split
    all_goals omega
  have httl0 : ttl ≠ 0 := by rintro rfl; have : (0 : UInt32).toNat = 0 := rfl; omega
  have hk := hw.payment.2.2
  have h57 : (Addr.bytes sa).length ≤ 57 := by
    obtain ⟨skey, spub, -, e2⟩ := hw.base
    rw [b2, e2, List.length_cons, List.length_append, h224, h224]
  obtain ⟨v, v1, v2, v3, v4, v5, v6, v7⟩ := C77_ledger_accepts_partial H hH blake224 blake256 h256 (transferSession q key i ra sa ttl) key pub u 0 e.slot fee bs
    rfl hk hpk ⟨by intro j hj; rw [List.mem_singleton.1 hj]; exact hid, by
      intro j hj; rw [List.mem_singleton.1 hj]; exact ⟨addr, hun, pub, List.mem_singleton.2 rfl, hpay⟩⟩
    (List.cons_ne_nil _ _) (List.nodup_singleton _) (by show 1 < 2 ^ 63; decide)
    (by intro o ho; rw [List.mem_singleton.1 ho]; exact ⟨by show Receives 0 (Addr.bytes ra); rw [b1]; exact c1, by
      show q.minUTXOValue.toNat ≤ 5000000; omega⟩)
    (by show 1 < 2 ^ 32; decide) (by show Receives 0 (Addr.bytes sa); rw [b2]; exact c2) (.inl rfl) (fun _ => by show e.slot < ttl.toNat; omega) hy
    ⟨by show 65536 ≤ q.txFeeFixed.toNat ∧ q.txFeeFixed.toNat < 2 ^ 31; have := hus.fixed; omega, by show q.txFeePerByte.toNat < 2 ^ 16; omega,
      by show q.maxTxSize.toNat ≤ 16384; omega, .inr (by rw [sI, sO]; exact hwid), h57, by show 0 < q.minUTXOValue.toNat; omega⟩
    (by rw [sI]; exact ha64) (by rw [sI, sO]; show 5000000 + fee + q.minUTXOValue.toNat ≤ _; omega) (by show bs.length ≤ q.maxTxSize.toNat; omega)
  have v2 : Ledger.Accepts (ledgerCrypto H blake224 blake256) (envOf q 0 e.slot) u v := v2
  rw [hq] at v2
  rw [sI, sO] at v4
  refine ⟨i, bs, v, fee, hi, hamt, r1, v1, v2, v3, ?_, v5, by omega, ?_, ?_⟩
  · rw [v4]
    show [outOf ⟨ra, 5000000⟩] ++ [(Addr.bytes sa, _)] = _
    rw [b2, ← b1]; rfl
  · rw [v6]
    show (if ttl = 0 then none else some ttl.toNat) = _
    rw [if_neg httl0, ht]
  · rcases v7 with ⟨-, h⟩ | ⟨d, m, h, -⟩
    · exact h
    · cases h

/-- **C90 is false for amounts close above `2^32 + 5000000`**: if the amount spent is from there plus the largest possible fee up to `2^32 + 5200000`, the change takes
more bytes than the placeholder, and the ledger rejects the transaction that is posted, in every state and slot. -/
theorem C90_width_rejected (H : Hashes) (hH : H.Ok) (blake224 blake256 : Bytes → Bytes) (h224 : ∀ m, (blake224 m).length = 28)
    (h256 : ∀ m, (blake256 m).length = 32) (w : World) (strict : Bool) (spare projectId mnemonic sendTo entropy : Bytes)
    (hm : mnemonic.count 32 = 23) (he : w.entropy mnemonic = some entropy)
    (root key pub addr text : Bytes) (hroot : FromBip39Entropy H entropy [] = .ok root) (hw : Wallet H blake224 root 0 key pub addr)
    (htext : IsBech32 testPrefix addr text) (e : Env) (u : UTxO) (ins : List TxInput) (tip : Nat) (hs : Truthful w e u addr text ins tip) (hus : Usual e)
    (hper : 0 < e.minFeeA) (recv : Bytes) (hrecv : if sendTo = [] then recv = addr else TestAddress recv sendTo)
    (hwin : ∀ i ∈ ins, 2 ^ 32 + 5000000 + (e.minFeeA * 400 + e.minFeeB) ≤ i.amount.toNat ∧ i.amount.toNat < 2 ^ 32 + 5200000) (hne : ins ≠ []) :
    ∃ bs, (∀ post, transfer (libs H blake224 blake256) { w with post := post } strict spare projectId mnemonic sendTo =
        post ⟨.testNet, projectId, bs⟩ >>= fun r => if r.status ≠ 200 then .err "submission failed" else .ok r.body) ∧
      ∀ slot u', ¬ Ledger.Valid (ledgerCrypto H blake224 blake256) { e with slot := slot } u' bs := by
  obtain ⟨i, hi, hpick⟩ : ∃ i ∈ ins, pick ins zeroInput = i := by
    rcases C91_selection ins zeroInput with ⟨pre, i, post, e1, h1, -, h3⟩ | ⟨h1, -⟩
    · exact ⟨i, by rw [e1]; simp, h3⟩
    · obtain ⟨j, hj⟩ := List.exists_mem_of_ne_nil _ hne
      have := h1 j hj
      have := hwin j hj
      omega
  obtain ⟨hid, hun⟩ := hs.unspent i hi
  obtain ⟨q, ra, sa, ttl, fee, bs, r1, hy, hq, ht, b1, b2, c1, c2, ⟨sb, m1, m2⟩, f1, f2, hlen, hpk, hpay⟩ :=
    transfer_session H hH blake224 blake256 h224 h256 w strict spare projectId mnemonic sendTo entropy hm (by rw [he]; rfl) root key pub addr text hroot hw htext
      e u ins tip hs hus recv hrecv (by rw [hpick]; omega)
  rw [hpick] at hy
  refine ⟨bs, r1, fun slot u' ⟨v, hv, hacc⟩ => ?_⟩
  have ha64 := UInt64.toNat_lt i.amount
  have hff := hus.fee
  have hwi := hwin i hi
  have hA : q.txFeePerByte.toNat = e.minFeeA := congrArg Env.minFeeA hq
  have hB : q.txFeeFixed.toNat = e.minFeeB := congrArg Env.minFeeB hq
  have sI : sumIn (transferSession q key i ra sa ttl).inputs = i.amount.toNat := by
    show (List.map _ [i]).sum = _; simp
  have sO : sumOut (transferSession q key i ra sa ttl).outputs = 5000000 := rfl
  have hfits := transfer_fits q key i ra sa ttl (by omega) (by rw [b1]; exact c1.1) (by rw [b2]; exact c2.1)
  obtain ⟨-, -, h3, h4, -⟩ := session_read H hH blake256 h256 _ fee bs hfits hy v hv
  have hfe := hacc.fee
  rw [h3, h4] at hfe
  have hfe : e.minFeeA * bs.length + e.minFeeB ≤ fee := hfe
  obtain ⟨t, hb, rfl⟩ := hy
  have hreg : Regular (packageCrypto H blake256) (transferSession q key i ra sa ttl).builder := by
    refine ⟨h256, package_key_length H blake256, package_sig_length H hH blake256, ⟨1, fun k => ⟨encNil, rfl, rfl⟩⟩, fun _ => rfl, ?_⟩
    intro w hw; cases hw
  have ex := C20_exact (packageCrypto H blake256) _ _ [] t bs sb hb hreg rfl (by show 0 ≤ 100; decide) (by show 1 < 2 ^ 32; decide) m1
    (by show sumIn (transferSession q key i ra sa ttl).inputs < _; rw [sI]; exact ha64)
    (by show sumOut (transferSession q key i ra sa ttl).outputs + _ ≤ sumIn (transferSession q key i ra sa ttl).inputs; rw [sI, sO]; omega)
    (by show sumOut (transferSession q key i ra sa ttl).outputs + _ ≤ sumIn (transferSession q key i ra sa ttl).inputs; rw [sI, sO]; omega)
    (by show 65536 ≤ q.txFeeFixed.toNat; have := hus.fixed; omega) (by show q.txFeeFixed.toNat < 2 ^ 31; omega) (by show q.txFeePerByte.toNat < 2 ^ 16; omega) (by omega)
  have ex : t.body.fee.toNat + q.txFeePerByte.toNat * (sb.length + uintSize (sumIn (transferSession q key i ra sa ttl).inputs - sumOut (transferSession q key i ra sa ttl).outputs - t.body.fee.toNat)) =
    linearFee q bs.length + q.txFeePerByte.toNat * (59 + uintSize (sumIn (transferSession q key i ra sa ttl).inputs - sumOut (transferSession q key i ra sa ttl).outputs - 200000)) := ex
  rw [sI, sO, m2] at ex
  have u9 : uintSize (i.amount.toNat - 5000000 - t.body.fee.toNat) = 9 := by
    unfold uintSize; repeat' split
    all_goals omega
  have u5 : uintSize (i.amount.toNat - 5000000 - 200000) = 5 := by
    unfold uintSize; repeat' split
    all_goals omega
  rw [u9, u5] at ex
  unfold linearFee at ex
  rw [hA, hB] at ex
  simp only [Nat.reduceAdd] at ex
  omega

/-- **C91 is false without a suitable output**: if every output of the wallet is below 6.2 ada (or there is none), the program does not report it. It
builds and posts a transaction that spends the zero value of an input, which no ledger can even read. -/
theorem C91_no_output_posts_garbage (H : Hashes) (hH : H.Ok) (blake224 blake256 : Bytes → Bytes) (h224 : ∀ m, (blake224 m).length = 28)
    (h256 : ∀ m, (blake256 m).length = 32) (w : World) (strict : Bool) (spare projectId mnemonic sendTo entropy : Bytes)
    (hm : mnemonic.count 32 = 23) (he : w.entropy mnemonic = some entropy)
    (root key pub addr text : Bytes) (hroot : FromBip39Entropy H entropy [] = .ok root) (hw : Wallet H blake224 root 0 key pub addr)
    (htext : IsBech32 testPrefix addr text) (e : Env) (u : UTxO) (ins : List TxInput) (tip : Nat) (hs : Truthful w e u addr text ins tip) (hus : Usual e)
    (recv : Bytes) (hrecv : if sendTo = [] then recv = addr else TestAddress recv sendTo) (hpoor : ∀ i ∈ ins, i.amount.toNat < 6200000) :
    ∃ bs, (∀ post, transfer (libs H blake224 blake256) { w with post := post } strict spare projectId mnemonic sendTo =
        post ⟨.testNet, projectId, bs⟩ >>= fun r => if r.status ≠ 200 then .err "submission failed" else .ok r.body) ∧ read bs = none := by
  have hpick : pick ins zeroInput = zeroInput := by
    rcases C91_selection ins zeroInput with ⟨pre, i, post, e1, h1, -, -⟩ | ⟨-, h⟩
    · have := hpoor i (by rw [e1]; simp)
      omega
    · exact h
  obtain ⟨q, ra, sa, ttl, fee, bs, r1, hy, hq, ht, b1, b2, c1, c2, -⟩ :=
    transfer_session H hH blake224 blake256 h224 h256 w strict spare projectId mnemonic sendTo entropy hm (by rw [he]; rfl) root key pub addr text hroot hw htext
      e u ins tip hs hus recv hrecv (by rw [hpick]; decide)
  rw [hpick] at hy
  refine ⟨bs, r1, C31_bad_id_rejected H hH blake256 h256 _ fee bs (transfer_fits _ _ _ _ _ _ (by decide) (by rw [b1]; exact c1.1) (by rw [b2]; exact c2.1)) hy zeroInput
    (List.mem_singleton.2 rfl) (by decide)⟩

/-- **C95, in the transfer.** The program does not look at the tokens of an output: if those of at least 6.2 ada hold tokens, what is posted is rejected. -/
theorem C95_transfer_tokens_rejected (H : Hashes) (hH : H.Ok) (blake224 blake256 : Bytes → Bytes) (h224 : ∀ m, (blake224 m).length = 28)
    (h256 : ∀ m, (blake256 m).length = 32) (w : World) (strict : Bool) (spare projectId mnemonic sendTo entropy : Bytes)
    (hm : mnemonic.count 32 = 23) (he : w.entropy mnemonic = some entropy)
    (root key pub addr text : Bytes) (hroot : FromBip39Entropy H entropy [] = .ok root) (hw : Wallet H blake224 root 0 key pub addr)
    (htext : IsBech32 testPrefix addr text) (e : Env) (u : UTxO) (ins : List TxInput) (tip : Nat) (hs : Truthful w e u addr text ins tip) (hus : Usual e)
    (recv : Bytes) (hrecv : if sendTo = [] then recv = addr else TestAddress recv sendTo)
    (k : Ledger.Tokens) (hk : ∀ i ∈ ins, 6200000 ≤ i.amount.toNat → ∃ asset, 0 < k (refOf i) asset) :
    ∃ bs, (∀ post, transfer (libs H blake224 blake256) { w with post := post } strict spare projectId mnemonic sendTo =
        post ⟨.testNet, projectId, bs⟩ >>= fun r => if r.status ≠ 200 then .err "submission failed" else .ok r.body) ∧
      ∀ e' u', ¬ Ledger.ValidTokens (ledgerCrypto H blake224 blake256) e' u' k bs := by
  by_cases hpoor : ∀ i ∈ ins, i.amount.toNat < 6200000
  · obtain ⟨bs, h1, h2⟩ := C91_no_output_posts_garbage H hH blake224 blake256 h224 h256 w strict spare projectId mnemonic sendTo entropy hm he root key pub addr text hroot hw
      htext e u ins tip hs hus recv hrecv hpoor
    refine ⟨bs, h1, fun e' u' ⟨v, hv, _⟩ => ?_⟩
    rw [h2] at hv; cases hv
  obtain ⟨i, hi, hamt, hpick⟩ : ∃ i ∈ ins, 6200000 ≤ i.amount.toNat ∧ pick ins zeroInput = i := by
    rcases C91_selection ins zeroInput with ⟨pre, i, post, e1, h1, -, h3⟩ | ⟨h1, -⟩
    · exact ⟨i, by rw [e1]; simp, h1, h3⟩
    · exact absurd h1 hpoor
  obtain ⟨hid, -⟩ := hs.unspent i hi
  obtain ⟨asset, ha⟩ := hk i hi hamt
  obtain ⟨q, ra, sa, ttl, fee, bs, r1, hy, hq, ht, b1, b2, c1, c2, -⟩ :=
    transfer_session H hH blake224 blake256 h224 h256 w strict spare projectId mnemonic sendTo entropy hm (by rw [he]; rfl) root key pub addr text hroot hw htext
      e u ins tip hs hus recv hrecv (by rw [hpick]; omega)
  rw [hpick] at hy
  exact ⟨bs, r1, fun e' u' => C95_tokens_rejected H hH blake224 blake256 h256 _ u' k fee bs e' (transfer_fits q key i ra sa ttl (by omega) (by rw [b1]; exact c1.1)
    (by rw [b2]; exact c2.1)) hy i (List.mem_singleton.2 rfl) asset ha⟩

/-! ### C92: mnemonics -/

/-- **C92, restoring (part that holds).** A mnemonic that the library rejects is reported, for both kinds of address. -/
theorem C92_restore_reports_partial (L : Libs) (w : World) (mnemonic network : Bytes) (addrType : UInt64) (hi : w.entropy mnemonic = none) (ht : addrType.toNat ≤ 1) :
    ∃ m, restore L w mnemonic network addrType = .err m := by
  unfold restore checkMnemonic networkOf entropyOf
  rw [hi]
  split
  · exact ⟨_, rfl⟩
  split
  · exact ⟨_, rfl⟩
  simp only [Res.ok_bind]
  have key : ∀ net : NetworkInfo, ∃ m, (if addrType = 0 then (Res.err "Invalid mnenomic" : Res Bytes) else if addrType = 1 then .err "Invalid mnenomic" else .ok []) = .err m := by
    intro net
    split
    · exact ⟨_, rfl⟩
    split
    · exact ⟨_, rfl⟩
    · rename_i h0 h1
      exfalso
      have a0 : addrType.toNat ≠ 0 := fun h => h0 (UInt64.toNat_inj.1 h)
      have a1 : addrType.toNat ≠ 1 := fun h => h1 (UInt64.toNat_inj.1 h)
      omega
  split
  · exact key MainNet
  split
  · exact key TestNet
  · exact ⟨_, rfl⟩

/-- Twenty-three spaces pass the check that the mnemonic has 24 words, so both programs get to the library with them. -/
theorem C92_spaces_pass : checkMnemonic (List.replicate 23 32) = .ok () := by decide

/-- **C92 is false for the transfer**: all mnemonics that the library rejects work the same, whatever they are. -/
theorem C92_transfer_ignores_mnemonic (L : Libs) (w : World) (strict : Bool) (spare projectId m m' sendTo : Bytes) (h : m.count 32 = 23) (h' : m'.count 32 = 23)
    (hi : w.entropy m = none) (hi' : w.entropy m' = none) :
    transfer L w strict spare projectId m sendTo = transfer L w strict spare projectId m' sendTo := by
  have hne : ∀ m : Bytes, m.count 32 = 23 → checkMnemonic m = .ok () := by
    intro m h
    unfold checkMnemonic
    rw [if_neg (by rintro rfl; simp at h), if_neg (by omega)]
  have hr : createRootKey L w m = createRootKey L w m' := by unfold createRootKey; rw [hi, hi']
  unfold transfer
  rw [hne m h, hne m' h', hr]

/-- **C92 is false for the transfer, with a payment**: with a mnemonic that the library rejects, the program spends from the wallet of the empty entropy, which everybody knows,
and the change goes back to it. -/
theorem C92_transfer_from_public_wallet (H : Hashes) (hH : H.Ok) (blake224 blake256 : Bytes → Bytes) (h224 : ∀ m, (blake224 m).length = 28)
    (h256 : ∀ m, (blake256 m).length = 32) (w : World) (strict : Bool) (spare projectId mnemonic sendTo : Bytes)
    (hm : mnemonic.count 32 = 23) (hi : w.entropy mnemonic = none)
    (root key pub addr text : Bytes) (hroot : FromBip39Entropy H [] [] = .ok root) (hw : Wallet H blake224 root 0 key pub addr)
    (htext : IsBech32 testPrefix addr text) (e : Env) (u : UTxO) (ins : List TxInput) (tip : Nat) (hs : Truthful w e u addr text ins tip) (hus : Usual e)
    (hslot : e.slot < tip + 300) (htip : tip + 300 < 2 ^ 32)
    (recv : Bytes) (hrecv : if sendTo = [] then recv = addr else TestAddress recv sendTo)
    (hrich : ∃ i ∈ ins, 6200000 ≤ i.amount.toNat)
    (hwin : ∀ i ∈ ins, i.amount.toNat < 2 ^ 32 + 5000000 ∨ 2 ^ 32 + 5200000 ≤ i.amount.toNat) :
    ∃ bs, (∀ post, transfer (libs H blake224 blake256) { w with post := post } strict spare projectId mnemonic sendTo =
        post ⟨.testNet, projectId, bs⟩ >>= fun r => if r.status ≠ 200 then .err "submission failed" else .ok r.body) ∧
      Ledger.Valid (ledgerCrypto H blake224 blake256) e u bs := by
  let w' : World := { w with entropy := fun _ => some [] }
  obtain ⟨i, bs, v, fee, -, -, h1, h2, h3, -⟩ := C90_transfer_accepted_partial H hH blake224 blake256 h224 h256 w' strict spare projectId mnemonic sendTo [] hm rfl root key pub addr
    text hroot hw htext e u ins tip ⟨hs.params, hs.utxos, hs.unspent, hs.slot⟩ hus hslot htip recv hrecv hrich hwin
  refine ⟨bs, fun post => ?_, v, h2, h3⟩
  rw [← h1 post]
  have hr : createRootKey (libs H blake224 blake256) { w with post := post } mnemonic = createRootKey (libs H blake224 blake256) { w' with post := post } mnemonic := by
    unfold createRootKey
    show FromBip39Entropy H ((w.entropy mnemonic).getD []) [] = FromBip39Entropy H [] []
    rw [hi]; rfl
  unfold transfer
  rw [hr]

/-! ### C93: when the transfer expires -/

/-- **C93 (exact).** What is posted expires, if the ledger can read it, at `tip + 300` modulo `2^32`, and never if that is zero. -/
theorem C93_ttl_exact (H : Hashes) (hH : H.Ok) (blake224 blake256 : Bytes → Bytes) (h224 : ∀ m, (blake224 m).length = 28)
    (h256 : ∀ m, (blake256 m).length = 32) (w : World) (strict : Bool) (spare projectId mnemonic sendTo entropy : Bytes)
    (hm : mnemonic.count 32 = 23) (he : w.entropy mnemonic = some entropy)
    (root key pub addr text : Bytes) (hroot : FromBip39Entropy H entropy [] = .ok root) (hw : Wallet H blake224 root 0 key pub addr)
    (htext : IsBech32 testPrefix addr text) (e : Env) (u : UTxO) (ins : List TxInput) (tip : Nat) (hs : Truthful w e u addr text ins tip) (hus : Usual e)
    (recv : Bytes) (hrecv : if sendTo = [] then recv = addr else TestAddress recv sendTo) :
    ∃ bs, (∀ post, transfer (libs H blake224 blake256) { w with post := post } strict spare projectId mnemonic sendTo =
        post ⟨.testNet, projectId, bs⟩ >>= fun r => if r.status ≠ 200 then .err "submission failed" else .ok r.body) ∧
      (∀ v, read bs = some v → v.ttl = if (tip + 300) % 2 ^ 32 = 0 then none else some ((tip + 300) % 2 ^ 32)) ∧
      ∀ slot u', (tip + 300) % 2 ^ 32 ≠ 0 → (tip + 300) % 2 ^ 32 ≤ slot → ¬ Ledger.Valid (ledgerCrypto H blake224 blake256) { e with slot := slot } u' bs := by
  have hid : (pick ins zeroInput).txHash.length ≤ 32 := by
    rcases C91_selection ins zeroInput with ⟨pre, i, post, e1, h1, -, h3⟩ | ⟨-, h⟩
    · rw [h3, (hs.unspent i (by rw [e1]; simp)).1]
    · rw [h]; decide
  obtain ⟨q, ra, sa, ttl, fee, bs, r1, hy, hq, ht, b1, b2, c1, c2, -⟩ :=
    transfer_session H hH blake224 blake256 h224 h256 w strict spare projectId mnemonic sendTo entropy hm (by rw [he]; rfl) root key pub addr text hroot hw htext
      e u ins tip hs hus recv hrecv hid
  have key : ∀ v, read bs = some v → v.ttl = if (tip + 300) % 2 ^ 32 = 0 then none else some ((tip + 300) % 2 ^ 32) := by
    intro v hv
    obtain ⟨-, -, -, -, -, h6⟩ := session_read H hH blake256 h256 _ fee bs (transfer_fits q key (pick ins zeroInput) ra sa ttl hid (by rw [b1]; exact c1.1) (by rw [b2]; exact c2.1)) hy v hv
    rw [h6]
    show (if ttl = 0 then none else some ttl.toNat) = _
    rw [← ht]
    have : ttl = 0 ↔ ttl.toNat = 0 := ⟨by rintro rfl; rfl, fun h => UInt32.toNat_inj.1 h⟩
    simp only [this]
  refine ⟨bs, r1, key, fun slot u' h0 hle ⟨v, hv, hacc⟩ => ?_⟩
  have := key v hv
  rw [if_neg h0] at this
  have := hacc.ttl _ this
  have : slot < (tip + 300) % 2 ^ 32 := this
  omega

/-! ### C94: restoring, generating and decoding addresses -/

/-- "addr" -/
def mainPrefix : Bytes := asc ['a','d','d','r']

/-- The text for the network. -/
def prefixFor (main : Bool) : Bytes := if main then mainPrefix else testPrefix

/-- The flag for the network. -/
def flagFor (main : Bool) : Bytes := if main then asc ['m','a','i','n','n','e','t'] else asc ['t','e','s','t','n','e','t']

/-- The header byte of an enterprise address for the network, CIP-19. -/
def enterpriseHeader (main : Bool) : UInt8 := if main then 0x61 else 0x60

theorem networkOf_flag (main : Bool) : networkOf (flagFor main) = .ok (cip19Net main) := by
  cases main <;> decide

theorem restoreBase_eq (L : Libs) (net : NetworkInfo) (entropy root : Bytes) (h : FromBip39Entropy L.H entropy [] = .ok root) (x : Address) (key : Bytes)
    (hg : generateBaseAddress L net root = .ok (x, key)) : restoreBase L net entropy = .ok x := by
  unfold generateBaseAddress at hg
  unfold restoreBase
  rw [h]; simp only [Res.ok_bind]
  obtain ⟨a, e1, hg⟩ := bind_ok hg
  rw [e1]; simp only [Res.ok_bind]
  obtain ⟨a, e2, hg⟩ := bind_ok hg
  rw [e2]; simp only [Res.ok_bind]
  obtain ⟨b, e3, hg⟩ := bind_ok hg
  rw [e3]; simp only [Res.ok_bind]
  obtain ⟨c, e4, hg⟩ := bind_ok hg
  rw [e4]; simp only [Res.ok_bind]
  obtain ⟨d, e5, hg⟩ := bind_ok hg
  rw [e5]; simp only [Res.ok_bind]
  injection hg with hg
  injection hg with hg
  rw [← hg]; rfl

/-- **C94 (base).** For a mnemonic the library accepts, type 1 prints the BIP-173 text of the base address of the wallet at the CIP-1852 paths. -/
theorem C94_restore_base (H : Hashes) (hH : H.Ok) (blake224 blake256 : Bytes → Bytes) (h224 : ∀ m, (blake224 m).length = 28) (w : World)
    (mnemonic entropy : Bytes) (hm : mnemonic.count 32 = 23) (he : w.entropy mnemonic = some entropy) (main : Bool) :
    ∃ root key pub addr text, FromBip39Entropy H entropy [] = .ok root ∧ Wallet H blake224 root (if main then 1 else 0) key pub addr ∧
      IsBech32 (prefixFor main) addr text ∧
      restore (libs H blake224 blake256) w mnemonic (flagFor main) 1 = .ok (asc "Base Address: ".toList ++ text) := by
  obtain ⟨root, r1, r2, -⟩ := C32_bip39_root_key H hH entropy []
  obtain ⟨key, pub, skey, spub, w1, w2, -, w4⟩ := wallet_of H hH blake224 blake256 h224 root r2 main
  obtain ⟨text, t1, t2⟩ := (C65_constructed_text main false false (blake224 pub) (blake224 spub)).1 _ (.inl rfl)
  have hb := (C65_constructed_bytes main false false (blake224 pub) (blake224 spub) (h224 _) (h224 _) 0 0 0).1
  rw [hb] at t2
  refine ⟨root, key, pub, cip19Header (false.toNat + 2 * false.toNat) main :: (blake224 pub ++ blake224 spub), text, r1, ⟨w1, skey, spub, w2, ?_⟩, by cases main <;> exact t2, ?_⟩
  · cases main <;> rfl
  · have hne : mnemonic ≠ [] := by rintro rfl; simp at hm
    unfold restore checkMnemonic entropyOf
    rw [if_neg hne, if_neg (by omega), networkOf_flag, he]
    simp only [Res.ok_bind]
    rw [if_neg (by decide), if_pos trivial, restoreBase_eq (libs H blake224 blake256) _ _ root r1 _ _ w4]
    simp only [Res.ok_bind, t1]
    rfl

/-- **C94 (enterprise).** Type 0 prints the BIP-173 text of the enterprise address of the payment key. -/
theorem C94_restore_enterprise (H : Hashes) (hH : H.Ok) (blake224 blake256 : Bytes → Bytes) (h224 : ∀ m, (blake224 m).length = 28) (w : World)
    (mnemonic entropy : Bytes) (hm : mnemonic.count 32 = 23) (he : w.entropy mnemonic = some entropy) (main : Bool) :
    ∃ root key pub text, FromBip39Entropy H entropy [] = .ok root ∧ AtPath H root 0 key pub ∧
      IsBech32 (prefixFor main) (enterpriseHeader main :: blake224 pub) text ∧
      restore (libs H blake224 blake256) w mnemonic (flagFor main) 0 = .ok (asc "Enterprise Address: ".toList ++ text) := by
  obtain ⟨root, r1, r2, -⟩ := C32_bip39_root_key H hH entropy []
  obtain ⟨acc, ea, -, -, hk⟩ := account_keys H hH root r2
  obtain ⟨key, pub, ek, pk⟩ := hk 0
  obtain ⟨pub', p1, p2, p3⟩ := keyHash_of H blake224 blake256 h224 key pk.2.2.1 pk.2.2.2
  have e1 := pk.2.1
  rw [p1] at e1
  injection e1 with e1
  subst e1
  obtain ⟨text, t1, t2⟩ := (C65_constructed_text main false false (blake224 pub') (blake224 pub')).1 _ (.inr rfl)
  have hb := (C65_constructed_bytes main false false (blake224 pub') (blake224 pub') (h224 _) (h224 _) 0 0 0).2.1
  rw [hb] at t2
  refine ⟨root, key, pub', text, r1, pk, by cases main <;> exact t2, ?_⟩
  have hne : mnemonic ≠ [] := by rintro rfl; simp at hm
  unfold restore checkMnemonic entropyOf restoreEnterprise
  rw [if_neg hne, if_neg (by omega), networkOf_flag, he]
  simp only [Res.ok_bind]
  rw [if_pos trivial, show (libs H blake224 blake256).H = H from rfl, r1]
  simp only [Res.ok_bind, ea, ek, p3]
  show (Addr.string (NewEnterpriseAddress (cip19Net main) (credFor false (blake224 pub'))) >>= fun t => Res.ok (asc "Enterprise Address: ".toList ++ t)) = _
  rw [t1]
  rfl

/-- **C94 (other flags).** Any network but "mainnet" and "testnet" is reported; any type above 1 prints nothing and is not reported. -/
theorem C94_restore_flags (L : Libs) (w : World) (mnemonic network : Bytes) (addrType : UInt64) :
    (network ≠ flagFor true → network ≠ flagFor false → ∃ m, restore L w mnemonic network addrType = .err m) ∧
    (mnemonic.count 32 = 23 → 1 < addrType.toNat → ∀ main, restore L w mnemonic (flagFor main) addrType = .ok []) := by
  constructor
  · intro h1 h2
    unfold restore checkMnemonic
    split
    · exact ⟨_, rfl⟩
    split
    · exact ⟨_, rfl⟩
    simp only [Res.ok_bind]
    have h1 : network ≠ asc ['m','a','i','n','n','e','t'] := h1
    have h2 : network ≠ asc ['t','e','s','t','n','e','t'] := h2
    unfold networkOf
    rw [if_neg h1, if_neg h2]
    exact ⟨_, rfl⟩
  · intro hm ht main
    have hne : mnemonic ≠ [] := by rintro rfl; simp at hm
    unfold restore checkMnemonic
    rw [if_neg hne, if_neg (by omega), networkOf_flag]
    simp only [Res.ok_bind]
    have a0 : addrType ≠ 0 := by rintro rfl; exact absurd ht (by decide)
    have a1 : addrType ≠ 1 := by rintro rfl; exact absurd ht (by decide)
    rw [if_neg a0, if_neg a1]
    rfl

/-- **C94 (generating).** The program logs the text of the base address of the wallet on the main network, and a signature in hexadecimal that verifies under the public key of the
account (m/1852'/1815'/0'). -/
theorem C94_generate (H : Hashes) (hH : H.Ok) (blake224 blake256 : Bytes → Bytes) (h224 : ∀ m, (blake224 m).length = 28) (entropy : Bytes) :
    ∃ root key pub addr text account apub sig, FromBip39Entropy H entropy [] = .ok root ∧ Wallet H blake224 root 1 key pub addr ∧ IsBech32 mainPrefix addr text ∧
      derivePath H makePublicKey root [2147485500, 2147485463, 2147483648] = .ok account ∧ MakePublicKey account = .ok apub ∧
      Valid H.sha512 apub (asc "Hello There".toList) sig ∧ generate (libs H blake224 blake256) entropy = .ok (text, Hex.encode sig) := by
  obtain ⟨root, r1, r2, -⟩ := C32_bip39_root_key H hH entropy []
  obtain ⟨key, pub, skey, spub, w1, w2, -, w4⟩ := wallet_of H hH blake224 blake256 h224 root r2 true
  obtain ⟨text, t1, t2⟩ := (C65_constructed_text true false false (blake224 pub) (blake224 spub)).1 _ (.inl rfl)
  have hb := (C65_constructed_bytes true false false (blake224 pub) (blake224 spub) (h224 _) (h224 _) 0 0 0).1
  rw [hb] at t2
  obtain ⟨acc, ea, la, sa, -⟩ := account_keys H hH root r2
  obtain ⟨sig, apub, s1, s2, s3⟩ := C37_signature_valid H hH acc la sa (asc "Hello There".toList)
  have ea' := ea
  rw [harden_spec.1, harden_spec.2.1, harden_spec.2.2] at ea'
  refine ⟨root, key, pub, _, text, acc, apub, sig, r1, ⟨w1, skey, spub, w2, rfl⟩, t2, ea', s2, s3, ?_⟩
  unfold generate
  rw [restoreBase_eq (libs H blake224 blake256) MainNet entropy root r1 _ _ w4]
  simp only [Res.ok_bind]
  rw [show (libs H blake224 blake256).H = H from rfl, r1]
  simp only [Res.ok_bind, ea, s1, t1]
  rfl

/-- **C94 (decoding).** The program logs the kind and the text it was given, for the text of every base and enterprise address of the test network. -/
theorem C94_decode (a text : Bytes) (h : TestAddress a text) (strict : Bool) (spare : Bytes) :
    simpleDecode strict text spare = .ok (asc (if a.length = 57 then "Base Addr: ".toList else "Enterprise Address: ".toList) ++ text) := by
  obtain ⟨hb, ⟨sp, ss, p, s, hp, hs, rfl⟩ | ⟨sp, p, hp, rfl⟩⟩ := h
  · obtain ⟨h1, ⟨h2, h3⟩, -⟩ := base_facts sp ss p s hp hs text hb
    unfold simpleDecode
    rw [h3 strict spare]
    simp only [Res.ok_bind]
    rw [if_pos (by rw [List.length_cons, List.length_append, hp, hs])]
    unfold NewBaseAddress at h2 ⊢
    simp only [h2, Res.ok_bind]
    rfl
  · have hby := (C65_constructed_bytes false sp false p p hp hp 0 0 0).2.1
    have hok : ShelleyOk (NewEnterpriseAddress (cip19Net false) (credFor sp p)) := ⟨.inr rfl, credFor_ok sp p hp⟩
    obtain ⟨h2, h3⟩ := text_of _ hok nofun ((C65_constructed_text false sp false p p).1 _ (.inr rfl)) text (by rw [hby]; exact hb)
    unfold simpleDecode
    rw [h3 strict spare]
    simp only [Res.ok_bind]
    rw [if_neg (by rw [List.length_cons, hp]; decide)]
    unfold NewEnterpriseAddress at h2 ⊢
    simp only [h2, Res.ok_bind]
    rfl

/-! ### Examples -/

/-- Every entropy has a wallet on the test network. -/
theorem wallet_exists (H : Hashes) (hH : H.Ok) (blake224 : Bytes → Bytes) (h224 : ∀ m, (blake224 m).length = 28) (entropy : Bytes) :
    ∃ root key pub addr text, FromBip39Entropy H entropy [] = .ok root ∧ Wallet H blake224 root 0 key pub addr ∧ IsBech32 testPrefix addr text := by
  obtain ⟨root, key, pub, addr, text, h1, h2, h3, -⟩ := C94_restore_base H hH blake224 blake224 h224
    ⟨fun _ => .panic, fun _ _ => .panic, fun _ => .panic, fun _ => .panic, fun _ => some entropy⟩ (List.replicate 23 32) entropy (by decide) rfl false
  exact ⟨root, key, pub, addr, text, h1, h2, h3⟩

/-- An answer of the service: an output of an amount, with the transaction id of 32 zero bytes. -/
def exampleUtxo (index : Int) (q : Bytes) : Utxo := ⟨List.replicate 64 48, index, [⟨lovelaceUnit, q⟩]⟩

def exampleIns (amounts : List UInt64) : List TxInput := amounts.zipIdx.map fun x => ⟨List.replicate 32 0, UInt16.ofNat x.2, x.1⟩

/-- The service of the examples: a wallet with outputs of 6, 10 and 1 ada, in this order. -/
def exampleWorld (entropy : Option Bytes) (us : List Utxo) : World where
  params _ := .ok ⟨44, 155381, 16384, 8, 0, asc "1000000".toList⟩
  utxos _ _ := .ok us
  tip _ := .ok ⟨86400000, 200, 3500000⟩
  post _ := .ok ⟨200, []⟩
  entropy _ := entropy

/-- The ledger of the examples. -/
def exampleEnv : Env := ⟨44, 155381, 16384, 1000000, 0, 86400123⟩

theorem example_describes (index : Nat) (hi : index < 2 ^ 16) (q : Bytes) (a : UInt64) (hq : q ≠ []) (hd : Digits q) (h : decFrom 0 q = a.toNat) (ha : a.toNat < 2 ^ 63) :
    Describes (exampleUtxo index q) ⟨List.replicate 32 0, UInt16.ofNat index, a⟩ := by
  refine ⟨?_, ?_, ⟨[], q, [], rfl, nofun, hq, hd, h⟩, ha⟩
  · have : ∀ n, IsHexOf (List.replicate (2 * n) 48) (List.replicate n 0) := by
      intro n
      induction n with
      | zero => exact .nil
      | succ n ih => exact .cons (i := 0) (j := 0) (by decide) (by decide) (by decide) ih
    exact this 32
  · show (index : Int) = ((UInt16.ofNat index).toNat : Int)
    rw [UInt16.toNat_ofNat', Nat.mod_eq_of_lt hi]

theorem example_truthful (entropy : Option Bytes) (addr text : Bytes) :
    Truthful (exampleWorld entropy [exampleUtxo 0 (asc "6000000".toList), exampleUtxo 1 (asc "10000000".toList), exampleUtxo 2 (asc "1000000".toList)]) exampleEnv
      (fun r => ((exampleIns [6000000, 10000000, 1000000]).find? fun i => refOf i == r).map fun i => (addr, i.amount.toNat)) addr text
      (exampleIns [6000000, 10000000, 1000000]) 86400000 := by
  refine ⟨⟨_, rfl, rfl, rfl, rfl, by decide, by unfold Digits; decide, by decide⟩, ⟨_, rfl, ?_⟩, ?_, ⟨_, rfl, rfl⟩⟩
  · exact .cons (example_describes 0 (by decide) _ 6000000 (by decide) (by unfold Digits; decide) (by decide) (by decide))
      (.cons (example_describes 1 (by decide) _ 10000000 (by decide) (by unfold Digits; decide) (by decide) (by decide))
      (.cons (example_describes 2 (by decide) _ 1000000 (by decide) (by unfold Digits; decide) (by decide) (by decide)) .nil))
  · have hk : ∀ i ∈ exampleIns [6000000, 10000000, 1000000], i.txHash.length = 32 ∧ (exampleIns [6000000, 10000000, 1000000]).find? (fun j => refOf j == refOf i) = some i := by
      decide
    intro i hi
    refine ⟨(hk i hi).1, ?_⟩
    show (((exampleIns [6000000, 10000000, 1000000]).find? fun j => refOf j == refOf i).map _) = _
    rw [(hk i hi).2]; rfl

theorem example_usual : Usual exampleEnv := ⟨rfl, by decide, by decide, by decide, by decide⟩

/-- C90, C93: a wallet with outputs of 6, 10 and 1 ada sends 5 ada to itself; whatever the hash functions are, the ledger accepts. -/
example (H : Hashes) (hH : H.Ok) (blake224 blake256 : Bytes → Bytes) (h224 : ∀ m, (blake224 m).length = 28) (h256 : ∀ m, (blake256 m).length = 32) :
    ∃ (w : World) (mnemonic : Bytes) (u : UTxO) (bs : Bytes),
      (∀ post, transfer (libs H blake224 blake256) { w with post := post } true [] [] mnemonic [] =
        post ⟨.testNet, [], bs⟩ >>= fun r => if r.status ≠ 200 then .err "submission failed" else .ok r.body) ∧
      Ledger.Valid (ledgerCrypto H blake224 blake256) exampleEnv u bs := by
  obtain ⟨root, key, pub, addr, text, h1, h2, h3⟩ := wallet_exists H hH blake224 h224 (List.replicate 32 9)
  obtain ⟨i, bs, v, fee, -, -, r1, r2, r3, -⟩ := C90_transfer_accepted_partial H hH blake224 blake256 h224 h256 _ true [] [] (List.replicate 23 32) [] (List.replicate 32 9) (by decide) rfl
    root key pub addr text h1 h2 h3 exampleEnv _ _ 86400000 (example_truthful (some (List.replicate 32 9)) addr text) example_usual (by decide) (by decide) addr (by rw [if_pos rfl])
    (by decide) (by decide)
  exact ⟨_, _, _, bs, r1, v, r2, r3⟩

/-- C92: the same for a mnemonic that the library rejects. -/
example (H : Hashes) (hH : H.Ok) (blake224 blake256 : Bytes → Bytes) (h224 : ∀ m, (blake224 m).length = 28) (h256 : ∀ m, (blake256 m).length = 32) :
    ∃ (w : World) (mnemonic : Bytes) (u : UTxO) (bs : Bytes), w.entropy mnemonic = none ∧
      (∀ post, transfer (libs H blake224 blake256) { w with post := post } true [] [] mnemonic [] =
        post ⟨.testNet, [], bs⟩ >>= fun r => if r.status ≠ 200 then .err "submission failed" else .ok r.body) ∧
      Ledger.Valid (ledgerCrypto H blake224 blake256) exampleEnv u bs := by
  obtain ⟨root, key, pub, addr, text, h1, h2, h3⟩ := wallet_exists H hH blake224 h224 []
  obtain ⟨bs, r1, r2⟩ := C92_transfer_from_public_wallet H hH blake224 blake256 h224 h256 _ true [] [] (List.replicate 23 32) [] (by decide) rfl
    root key pub addr text h1 h2 h3 exampleEnv _ _ 86400000 (example_truthful none addr text) example_usual (by decide) (by decide) addr (by rw [if_pos rfl])
    (by decide) (by decide)
  exact ⟨_, _, _, bs, rfl, r1, r2⟩

/-- C90 (the window) and C91 (nothing suitable): services that meet the hypotheses, with an output of 4300150000 lovelace, and with none. -/
example (addr text : Bytes) :
    (∃ w u ins, Truthful w exampleEnv u addr text ins 86400000 ∧ ins ≠ [] ∧
      ∀ i ∈ ins, 2 ^ 32 + 5000000 + (exampleEnv.minFeeA * 400 + exampleEnv.minFeeB) ≤ i.amount.toNat ∧ i.amount.toNat < 2 ^ 32 + 5200000) ∧
    ∃ w u, Truthful w exampleEnv u addr text [] 86400000 := by
  refine ⟨⟨exampleWorld none [exampleUtxo 0 (asc "4300150000".toList)], fun _ => some (addr, 4300150000), [⟨List.replicate 32 0, 0, 4300150000⟩], ⟨?_, ?_, ?_, ⟨_, rfl, rfl⟩⟩, by decide, by decide⟩,
    exampleWorld none [], fun _ => none, ⟨?_, ⟨_, rfl, .nil⟩, nofun, ⟨_, rfl, rfl⟩⟩⟩
  · exact ⟨_, rfl, rfl, rfl, rfl, by decide, by unfold Digits; decide, by decide⟩
  · exact ⟨_, rfl, .cons (example_describes 0 (by decide) _ 4300150000 (by decide) (by unfold Digits; decide) (by decide) (by decide)) .nil⟩
  · intro i hi
    rw [List.mem_singleton.1 hi]
    exact ⟨rfl, rfl⟩
  · exact ⟨_, rfl, rfl, rfl, rfl, by decide, by unfold Digits; decide, by decide⟩

/-- C94: the text of an enterprise address of the test network. -/
example : ∃ text, TestAddress (0x60 :: List.replicate 28 1) text := by
  obtain ⟨t, -, h⟩ := (C65_constructed_text false false false (List.replicate 28 1) []).1 _ (.inr rfl)
  exact ⟨t, h, .inr ⟨false, List.replicate 28 1, by decide, rfl⟩⟩

end Cardano.Props
