import Verif.Node.Lemmas
import Verif.Props.TxSamples
/-!
# Properties C44, C45, C46, C62, C63: the node back ends
-/
set_option autoImplicit false

namespace Cardano.Props
open Node Cbor TxSpec Transaction Addr Cardano.Spec

theorem toNat_toUint (n : Int) : ((toUint n).toNat : Int) = n % 2 ^ 64 := by
  unfold toUint
  rw [UInt64.ofInt, UInt64.toNat_ofNat']
  omega

theorem toNat_ofInt16 (n : Int) : ((UInt16.ofInt n).toNat : Int) = n % 2 ^ 16 := by
  rw [UInt16.ofInt, UInt16.toNat_ofNat']
  omega

theorem toNat_ofInt8 (n : Int) : ((UInt8.ofInt n).toNat : Int) = n % 2 ^ 8 := by
  rw [UInt8.ofInt, UInt8.toNat_ofNat']
  omega

theorem toUint_toNat (n : UInt64) : toUint (n.toNat : Int) = n := by
  apply UInt64.toNat_inj.1
  have := toNat_toUint n.toNat
  have := n.toNat_lt
  omega

theorem ofInt16_toNat (n : UInt16) : UInt16.ofInt (n.toNat : Int) = n := by
  apply UInt16.toNat_inj.1
  have := toNat_ofInt16 n.toNat
  have := n.toNat_lt
  omega

/-! ### C44 -/

/-- The networks one can talk to. -/
inductive Net where
  | main
  | test (magic : Nat)
  deriving DecidableEq

/-- The network a `NetworkInfo` stands for: identifier 1 is the main net (CIP-19). -/
def netOf (n : NetworkInfo) : Net := if n.networkId = 1 then .main else .test n.protocolMagic.toNat

/-- The network selected by the arguments of `cardano-cli`: the option `--mainnet`, or the option `--testnet-magic` with the following
argument, a decimal number. Nothing else selects a network (and the tool then fails). -/
def selected : List Bytes → Option Net
  | [] => none
  | a :: rest =>
    if a = asc ['-','-','m','a','i','n','n','e','t'] then some .main
    else if a = asc ['-','-','t','e','s','t','n','e','t','-','m','a','g','i','c'] then
      match rest with
      | n :: _ => some (.test (decFrom 0 n))
      | [] => none
    else selected rest

/-- No argument is a network option. -/
def NoNetworkOption (args : List Bytes) : Prop :=
  ∀ a ∈ args, a ≠ asc ['-','-','m','a','i','n','n','e','t'] ∧ a ≠ asc ['-','-','t','e','s','t','n','e','t','-','m','a','g','i','c']

theorem selected_append (args rest : List Bytes) (h : NoNetworkOption args) : selected (args ++ rest) = selected rest := by
  induction args with
  | nil => rfl
  | cons a args ih =>
    have := h a (List.mem_cons_self ..)
    rw [List.cons_append, selected.eq_def]
    dsimp only
    rw [if_neg this.1, if_neg this.2]
    exact ih (fun b hb => h b (List.mem_cons_of_mem _ hb))

/-- **C44 (partial).** The Blockfrost back end: queries and submissions go to the same server, the main net server exactly for networks
other than 0. Missing: the `cardano-cli` back end, for which the claim is false, see `C44_cli_wrong_network`. -/
theorem C44_blockfrost_partial (net : NetworkInfo) :
    getNetwork net = clientServer net ∧ (netOf net = .main → getNetwork net = .mainNet) ∧ (net.networkId = 0 → getNetwork net = .testNet) := by
  refine ⟨rfl, ?_, ?_⟩
  · intro h
    have : net.networkId = 1 := by
      unfold netOf at h
      split at h
      · assumption
      · cases h
    unfold getNetwork; rw [this]; rfl
  · intro h; unfold getNetwork; rw [if_pos h]

/-- **C44 is false** for the `cardano-cli` back end, for every network and every command: for network 0, the test net, the main net is
selected; for all others, the main net among them, no network is selected at all (option and number form a single argument). -/
theorem C44_cli_wrong_network (net : NetworkInfo) (args : List Bytes) (h : NoNetworkOption args) :
    selected (cliArgs net args) ≠ some (netOf net) ∧
    (net.networkId = 0 → selected (cliArgs net args) = some .main) ∧ (net.networkId ≠ 0 → selected (cliArgs net args) = none) := by
  have h0 : net.networkId = 0 → selected (cliArgs net args) = some .main := by
    intro h0
    unfold cliArgs
    rw [if_pos h0, selected_append _ _ h]; rfl
  have h1 : net.networkId ≠ 0 → selected (cliArgs net args) = none := by
    intro h1
    unfold cliArgs
    rw [if_neg h1, selected_append _ _ h]
    generalize decimal net.protocolMagic.toNat = d
    rw [selected, if_neg, if_neg, selected]
    · intro e
      have := congrArg List.length e
      simp only [List.length_append] at this
      have l1 : (asc ['-','-','t','e','s','t','n','e','t','-','m','a','g','i','c',' ']).length = 16 := by decide
      have l2 : (asc ['-','-','t','e','s','t','n','e','t','-','m','a','g','i','c']).length = 15 := by decide
      omega
    · intro e
      have := congrArg (fun l => l.take 3) e
      rw [List.take_append_of_le_length (by decide)] at this
      exact absurd this (by decide)
  refine ⟨?_, h0, h1⟩
  by_cases c : net.networkId = 0
  · rw [h0 c]
    unfold netOf
    rw [if_neg (by rw [c]; decide)]
    intro e; cases e
  · rw [h1 c]; intro e; cases e

/-- The two networks of the package, and the commands the package uses. -/
example : selected (cliArgs TestNet [asc ['q','u','e','r','y'], asc ['t','i','p']]) = some .main ∧
    selected (cliArgs MainNet [asc ['q','u','e','r','y'], asc ['t','i','p']]) = none ∧ netOf TestNet = .test 1097911063 ∧ netOf MainNet = .main := by
  have h : NoNetworkOption [asc ['q','u','e','r','y'], asc ['t','i','p']] := by unfold NoNetworkOption; decide
  exact ⟨(C44_cli_wrong_network TestNet _ h).2.1 rfl, (C44_cli_wrong_network MainNet _ h).2.2 (by decide), rfl, rfl⟩

/-! ### C45 -/

/-- Blanks and tabs. -/
def Blanks (s : Bytes) : Prop := s ≠ [] ∧ ∀ c ∈ s, c = 32 ∨ c = 9

theorem Blanks.spaces {s : Bytes} (h : Blanks s) : Spaces s := by
  intro c hc
  rcases h.2 c hc with rfl | rfl <;> decide

/-- A row of the table: transaction hash in hexadecimal, output index, amount, and further text, separated by white space. -/
structure IsRow (line : Bytes) (i : TxInput) : Prop where
  shape : ∃ hash ix am s1 s2 s3 rest, line = hash ++ (s1 ++ (ix ++ (s2 ++ (am ++ (s3 ++ rest))))) ∧
    Blanks s1 ∧ Blanks s2 ∧ Blanks s3 ∧
    hash ≠ [] ∧ IsHexOf hash i.txHash ∧
    ix ≠ [] ∧ Digits ix ∧ decFrom 0 ix = i.index.toNat ∧
    am ≠ [] ∧ Digits am ∧ decFrom 0 am = i.amount.toNat
  fits : i.amount.toNat < 2 ^ 63

theorem hex_word {s b : Bytes} (h : IsHexOf s b) (hne : s ≠ []) : Word s := by
  refine ⟨hne, ?_⟩
  clear hne
  have key : ∀ c : UInt8, ∀ v, hexVal c = some v → isSpace c = false := by
    have : ∀ c : UInt8, (hexVal c).isSome = true → isSpace c = false := forall_byte (by decide +kernel)
    intro c v hv
    exact this c (by rw [hv]; rfl)
  induction h with
  | nil => intro c hc; cases hc
  | cons hc hd _ _ ih =>
    intro x hx
    rcases List.mem_cons.1 hx with rfl | hx
    · exact key _ _ hc
    rcases List.mem_cons.1 hx with rfl | hx
    · exact key _ _ hd
    exact ih x hx

theorem parseRow_ok (line : Bytes) (i : TxInput) (h : IsRow line i) : parseRow line = .ok i := by
  obtain ⟨⟨hash, ix, am, s1, s2, s3, rest, e, p1, p3, p5, h1, h2, x1, x2, x3, a1, a2, a3⟩, fits⟩ := h
  have hf : fields line = hash :: ix :: am :: fields rest := by
    rw [e, fields_cons _ _ _ (hex_word h2 h1) p1.spaces p1.1, fields_cons _ _ _ (x2.word x1) p3.spaces p3.1, fields_cons _ _ _ (a2.word a1) p5.spaces p5.1]
  unfold parseRow
  simp only [hf, index, List.getElem?_cons_zero, List.getElem?_cons_succ, Res.ok_bind]
  rw [(ParseUint_ok 16 ix i.index.toNat).2 ⟨x1, x2, x3, UInt16.toNat_lt _⟩, Res.ok_bind, fields_word _ (a2.word a1)]
  simp only [List.getElem?_cons_zero, Res.ok_bind]
  rw [Atoi_digits am a1 a2 (by rw [a3]; exact fits), Res.ok_bind, C31_hash_kept_partial hash i.txHash h2]
  rw [a3, toUint_toNat]
  show Res.ok _ = _
  rw [UInt16.ofNat_toNat]

/-- **C45 (partial).** The loop over the rows is right: applied to the lines of a well-formed table of any number of rows (after the
two header lines, up to the end of the text) it returns the rows as inputs, in order. Missing: the loop is never reached on such
tables, see `C45_always_panics`. -/
theorem C45_rows_partial (header1 header2 : Bytes) (h1 : 10 ∉ header1) (h2 : 10 ∉ header2) (rows : List Bytes) (hr : ∀ r ∈ rows, 10 ∉ r)
    (inputs : List TxInput) (h : All2 IsRow rows inputs) :
    let table := header1 ++ 10 :: (header2 ++ 10 :: rows.flatMap (fun r => r ++ [10]))
    ((splitLines table).drop 2).dropLast = rows ∧ parseRows rows = .ok inputs := by
  dsimp only
  constructor
  · rw [splitLines_append _ _ h1, splitLines_append _ _ h2, List.drop_succ_cons, List.drop_succ_cons, List.drop_zero]
    clear h
    suffices h : splitLines (rows.flatMap (fun r => r ++ [10])) = rows ++ [[]] by rw [h, List.dropLast_concat]
    induction rows with
    | nil => rfl
    | cons r rows ih =>
      rw [List.flatMap_cons, List.append_assoc, List.singleton_append, splitLines_append _ _ (hr r (List.mem_cons_self ..)),
        ih (fun x hx => hr x (List.mem_cons_of_mem _ hx)), List.cons_append]
  · clear hr
    induction h with
    | nil => rfl
    | cons hr _ ih => rw [parseRows, parseRow_ok _ _ hr, Res.ok_bind, ih]; rfl

/-- **C45 is false**: every output of four bytes or more makes `UTXOs` panic (the number of bytes is used as the number of lines). -/
theorem C45_always_panics (run : List Bytes → Res Bytes) (net : NetworkInfo) (addr data : Bytes)
    (hrun : ∀ args, run args = .ok data) (h : 4 ≤ data.length) : cliUTXOs run net addr = .panic := by
  unfold cliUTXOs execCommand
  rw [hrun, Res.ok_bind]
  unfold parseUTXOs
  dsimp only
  rw [if_neg (by omega)]
  unfold slice
  by_cases hp : data.length - 1 > (splitLines data).length ∨ 2 > data.length - 1
  · rw [if_pos hp]; rfl
  · rw [if_neg hp, Res.ok_bind]
    have hlen := splitLines_length data
    have hcount := List.count_le_length (a := (10 : UInt8)) (l := data)
    cases hl : ((splitLines data).take (data.length - 1)).drop 2 with
    | nil =>
      have := congrArg List.length hl
      simp only [List.length_drop, List.length_take, List.length_nil] at this
      omega
    | cons row rows =>
      have hm : row ∈ splitLines data := by
        have : row ∈ ((splitLines data).take (data.length - 1)).drop 2 := by rw [hl]; exact List.mem_cons_self ..
        exact List.mem_of_mem_take (List.mem_of_mem_drop this)
      have hshort := splitLines_mem data row hm
      have hf := fields_short row (by omega)
      have hi : index (fields row) 1 = .panic := by
        unfold index
        rw [List.getElem?_eq_none (by omega)]
      rw [parseRows]
      unfold parseRow
      dsimp only
      rw [hi]
      rfl

/-- On shorter outputs no input is ever returned, so `UTXOs` never returns any. -/
theorem C45_never_an_input (run : List Bytes → Res Bytes) (net : NetworkInfo) (addr : Bytes) (is : List TxInput)
    (h : cliUTXOs run net addr = .ok is) : is = [] := by
  unfold cliUTXOs at h
  cases hrun : execCommand run net [asc ['q','u','e','r','y'], asc ['u','t','x','o','s'], asc ['-','-','a','d','d','r','e','s','s',' '] ++ addr] with
  | err m => rw [hrun] at h; cases h
  | panic => rw [hrun] at h; cases h
  | ok data =>
    rw [hrun, Res.ok_bind] at h
    by_cases h4 : 4 ≤ data.length
    · have := C45_always_panics (fun _ => .ok data) net addr data (fun _ => rfl) h4
      unfold cliUTXOs execCommand at this
      rw [Res.ok_bind] at this
      rw [this] at h; cases h
    · unfold parseUTXOs at h
      dsimp only at h
      by_cases h3 : data.length < 3
      · rw [if_pos h3] at h
        injection h with h; exact h.symm
      · rw [if_neg h3, show data.length - 1 = 2 by omega] at h
        unfold slice at h
        split at h
        · cases h
        · rw [Res.ok_bind, List.drop_of_length_le (by rw [List.length_take]; omega)] at h
          injection h with h; exact h.symm

/-- A table of one row as the tool prints it, and that it is well-formed in the sense of `C45_rows_partial`. -/
def sampleRow : Bytes := asc ['a','b','0','1',' ',' ',' ','7',' ',' ','5','0','0','0',' ','l','o','v','e','l','a','c','e']

example : IsRow sampleRow ⟨[0xab, 0x01], 7, 5000⟩ := by
  refine ⟨⟨asc ['a','b','0','1'], asc ['7'], asc ['5','0','0','0'], asc [' ',' ',' '], asc [' ',' '], asc [' '],
    asc ['l','o','v','e','l','a','c','e'], ?_, ?_, ?_, ?_, ?_, ?_, ?_, ?_, ?_, ?_, ?_, ?_⟩, by decide⟩
  all_goals first | (unfold Blanks; decide) | (unfold Digits; decide) | decide +kernel | skip
  exact .cons (i := 10) (j := 11) (by decide) (by decide) (by decide) (.cons (i := 0) (j := 1) (by decide) (by decide) (by decide) .nil)

/-! ### C46 -/

/-- The name of the currency in the answers of the service. -/
def lovelaceUnit : Bytes := asc ['l','o','v','e','l','a','c','e']

theorem lovelace_eq : lovelace = lovelaceUnit := by decide

/-- A UTXO as described by the service and the input it should become: hash, index, and the quantity of the only lovelace entry. -/
structure Describes (u : Utxo) (i : TxInput) : Prop where
  hash : IsHexOf u.txHash i.txHash
  index : u.outputIndex = i.index.toNat
  amount : ∃ pre q post, u.amount = pre ++ ⟨lovelaceUnit, q⟩ :: post ∧ (∀ a ∈ pre ++ post, a.unit ≠ lovelaceUnit) ∧
    q ≠ [] ∧ Digits q ∧ decFrom 0 q = i.amount.toNat
  fits : i.amount.toNat < 2 ^ 63

theorem sumAmount_skip (l rest : List Amount) (h : ∀ a ∈ l, a.unit ≠ lovelaceUnit) (n : UInt64) : sumAmount (l ++ rest) n = sumAmount rest n := by
  induction l generalizing n with
  | nil => rfl
  | cons a l ih =>
    rw [List.cons_append, sumAmount, lovelace_eq, if_neg (h a (List.mem_cons_self ..))]
    exact ih (fun b hb => h b (List.mem_cons_of_mem _ hb)) n

/-- **C46 (partial).** All UTXOs become inputs, in order, with their hash, index and lovelace amount: when the indices are below
`2^16`, the amounts below `2^63`, and each has one lovelace entry. Missing: see the following theorems. -/
theorem C46_utxos_partial (query : Server → Bytes → Res (List Utxo)) (net : NetworkInfo) (addr : Bytes) (us : List Utxo) (is : List TxInput)
    (hq : query (clientServer net) addr = .ok us) (h : All2 Describes us is) : bfUTXOs query net addr = .ok is := by
  unfold bfUTXOs
  rw [hq, Res.ok_bind]
  clear hq
  induction h with
  | nil => rfl
  | @cons u i us is hu _ ih =>
    obtain ⟨pre, q, post, e, hn, q1, q2, q3⟩ := hu.amount
    have hs : sumAmount u.amount 0 = .ok i.amount := by
      rw [e, sumAmount_skip _ _ (fun a ha => hn a (List.mem_append_left _ ha)), sumAmount, lovelace_eq, if_pos rfl,
        Atoi_digits q q1 q2 (by rw [q3]; exact hu.fits), Res.ok_bind]
      have := sumAmount_skip post [] (fun a ha => hn a (List.mem_append_right _ ha)) (toUint (decFrom 0 q))
      rw [List.append_nil] at this
      rw [this, sumAmount, q3, toUint_toNat]
    rw [convertUTXOs, hs, Res.ok_bind, ih, Res.ok_bind, C31_hash_kept_partial _ _ hu.hash, hu.index, ofInt16_toNat]
    rfl

/-- **C46 is false** for indices of `2^16` and more: they are reduced modulo `2^16` silently. -/
theorem C46_index_truncated (u : Utxo) (us : List Utxo) :
    convertUTXOs ({ u with outputIndex := u.outputIndex + 65536 } :: us) = convertUTXOs (u :: us) := by
  have : UInt16.ofInt (u.outputIndex + 65536) = UInt16.ofInt u.outputIndex := by
    apply UInt16.toNat_inj.1
    have h1 := toNat_ofInt16 (u.outputIndex + 65536)
    have h2 := toNat_ofInt16 u.outputIndex
    omega
  rw [convertUTXOs, convertUTXOs, this]

/-- **C46 is false** for several lovelace entries: all but the last are ignored. -/
theorem C46_last_lovelace_wins (pre post : List Amount) (q : Bytes) (v : Int) (hv : Atoi q = .ok v) (hpost : ∀ a ∈ post, a.unit ≠ lovelaceUnit)
    (n : UInt64) (hpre : ∀ a ∈ pre, a.unit = lovelaceUnit → ∃ w, Atoi a.quantity = .ok w) :
    sumAmount (pre ++ ⟨lovelaceUnit, q⟩ :: post) n = .ok (toUint v) := by
  induction pre generalizing n with
  | nil =>
    rw [List.nil_append, sumAmount, lovelace_eq, if_pos rfl, hv, Res.ok_bind]
    have := sumAmount_skip post [] hpost (toUint v)
    rw [List.append_nil] at this
    rw [this]; rfl
  | cons a pre ih =>
    rw [List.cons_append, sumAmount, lovelace_eq]
    have ih := fun n => ih n (fun b hb => hpre b (List.mem_cons_of_mem _ hb))
    split
    · rename_i ha
      obtain ⟨w, hw⟩ := hpre a (List.mem_cons_self ..) ha
      rw [hw, Res.ok_bind]; exact ih _
    · exact ih _

/-- **C46 is false** for a negative quantity, which becomes an amount close to `2^64`. -/
theorem C46_negative_accepted : convertUTXOs [⟨[], 0, [⟨lovelaceUnit, asc ['-','1']⟩]⟩] = .ok [⟨[], 0, 18446744073709551615⟩] := by decide +kernel

/-- The hypotheses of the partial theorem are met with several assets. -/
example : Describes ⟨asc ['a','b'], 65535, [⟨asc ['x'], asc ['3']⟩, ⟨lovelaceUnit, asc ['4','2']⟩]⟩ ⟨[0xab], 65535, 42⟩ :=
  ⟨.cons (i := 10) (j := 11) (by decide) (by decide) (by decide) .nil, by decide,
    ⟨[⟨asc ['x'], asc ['3']⟩], asc ['4','2'], [], rfl, by
      intro a ha
      simp only [List.append_nil, List.mem_singleton] at ha
      subst ha; decide, by decide, by unfold Digits; decide, by decide⟩, by decide⟩

/-! ### C62: protocol parameters and tip from the service -/

/-- **C62 (partial).** Parameters that are not negative and versions below 256 are kept. -/
theorem C62_parameters_partial (p : EpochParameters) (h1 : 0 ≤ p.minFeeA ∧ p.minFeeA < 2 ^ 63) (h2 : 0 ≤ p.minFeeB ∧ p.minFeeB < 2 ^ 63)
    (h3 : 0 ≤ p.maxTxSize ∧ p.maxTxSize < 2 ^ 63) (h4 : 0 ≤ p.protocolMajorVer ∧ p.protocolMajorVer < 256)
    (h5 : 0 ≤ p.protocolMinorVer ∧ p.protocolMinorVer < 256) (h6 : p.minUtxo ≠ []) (h7 : Digits p.minUtxo) (h8 : decFrom 0 p.minUtxo < 2 ^ 63) :
    ∃ q, convertParams p = .ok q ∧ (q.params.txFeePerByte.toNat : Int) = p.minFeeA ∧ (q.params.txFeeFixed.toNat : Int) = p.minFeeB ∧
      (q.params.maxTxSize.toNat : Int) = p.maxTxSize ∧ q.params.minUTXOValue.toNat = decFrom 0 p.minUtxo ∧
      (q.major.toNat : Int) = p.protocolMajorVer ∧ (q.minor.toNat : Int) = p.protocolMinorVer := by
  unfold convertParams
  rw [Atoi_digits _ h6 h7 h8, Res.ok_bind]
  have k : ∀ n : Int, 0 ≤ n ∧ n < 2 ^ 63 → ((toUint n).toNat : Int) = n := by
    intro n hn
    rw [toNat_toUint]
    omega
  have k8 : ∀ n : Int, 0 ≤ n ∧ n < 256 → ((UInt8.ofInt n).toNat : Int) = n := by
    intro n hn
    rw [toNat_ofInt8]
    omega
  refine ⟨_, rfl, k _ h1, k _ h2, k _ h3, ?_, k8 _ h4, k8 _ h5⟩
  have := k (decFrom 0 p.minUtxo) ⟨by omega, by omega⟩
  exact_mod_cast this

/-- **C62 is false** for versions of 256 and more (and for negative numbers). -/
theorem C62_version_truncated :
    convertParams ⟨44, 155381, 16384, 256, -1, asc ['1']⟩ = .ok ⟨⟨44, 155381, 16384, 1⟩, 0, 255⟩ := by decide +kernel

/-- The tip, when the numbers are not negative. -/
theorem C62_tip (b : Block) (h1 : 0 ≤ b.slot ∧ b.slot < 2 ^ 63) (h2 : 0 ≤ b.epoch ∧ b.epoch < 2 ^ 63) (h3 : 0 ≤ b.height ∧ b.height < 2 ^ 63) :
    ((convertTip b).slot.toNat : Int) = b.slot ∧ ((convertTip b).epoch.toNat : Int) = b.epoch ∧ ((convertTip b).block.toNat : Int) = b.height := by
  have k : ∀ n : Int, 0 ≤ n ∧ n < 2 ^ 63 → ((toUint n).toNat : Int) = n := by
    intro n hn
    rw [toNat_toUint]
    omega
  exact ⟨k _ h1, k _ h2, k _ h3⟩

/-- Main net values. -/
example : ∃ q, convertParams ⟨44, 155381, 16384, 7, 0, asc ['3','4','4','8','2']⟩ = .ok q ∧ q.params.minUTXOValue = 34482 :=
  ⟨⟨⟨44, 155381, 16384, 34482⟩, 7, 0⟩, by decide +kernel, rfl⟩

/-! ### C63: submission -/

theorem isHexOf_encode (b : Bytes) : IsHexOf (Hex.encode b) b := by
  have key : ∀ x : UInt8, hexVal (Hex.hexDigit (x >>> 4)) = some (x.toNat / 16) ∧ hexVal (Hex.hexDigit (x &&& 15)) = some (x.toNat % 16) :=
    forall_byte (by decide +kernel)
  induction b with
  | nil => exact .nil
  | cons x b ih =>
    exact .cons (key x).1 (key x).2 (by omega) ih

/-- `Hex` writes the bytes of `Bytes` in hexadecimal, and fails when `Bytes` does. -/
theorem C63_tx_hex (C : Crypto) (t : Tx) (k : Nat) :
    (∀ bs, Transaction.bytes C t k = .ok bs → ∃ s, Transaction.hex C t k = .ok s ∧ IsHexOf s bs) ∧
    (∀ s, Transaction.hex C t k = .ok s → ∃ bs, Transaction.bytes C t k = .ok bs ∧ IsHexOf s bs) := by
  unfold Transaction.hex
  constructor
  · intro bs h
    rw [h]
    exact ⟨_, rfl, isHexOf_encode bs⟩
  · intro s h
    cases e : Transaction.bytes C t k with
    | ok bs =>
      rw [e] at h
      injection h with h
      exact ⟨bs, rfl, h ▸ isHexOf_encode bs⟩
    | err m => rw [e] at h; cases h
    | panic => rw [e] at h; cases h

/-- **C63** (Blockfrost). The request carries exactly the bytes of the transaction, to the server of the network; the string returned is the body of
the answer, and the error is nil exactly for status 200. Nothing is sent when the transaction does not serialise. -/
theorem C63_blockfrost_submits (C : Crypto) (post : Request → Res Response) (net : NetworkInfo) (projectId : Bytes) (t : Tx) (k : Nat) :
    (∀ bs, Transaction.bytes C t k = .ok bs → ∀ r, post ⟨if net.networkId = 0 then .testNet else .mainNet, projectId, bs⟩ = .ok r →
      bfSubmitTx C post net projectId t k = .ok (r.body, decide (r.status ≠ 200))) ∧
    ((∀ bs, Transaction.bytes C t k ≠ .ok bs) → ∀ x, bfSubmitTx C post net projectId t k ≠ .ok x) := by
  constructor
  · intro bs hb r hr
    unfold bfSubmitTx
    rw [hb, Res.ok_bind, getNetwork, hr, Res.ok_bind]
    rfl
  · intro hb x h
    unfold bfSubmitTx at h
    cases e : Transaction.bytes C t k with
    | ok bs => exact hb bs e
    | err m => rw [e] at h; cases h
    | panic => rw [e] at h; cases h

/-- **C63** (`cardano-cli`). The file handed to the tool carries the bytes of the transaction in hexadecimal. -/
theorem C63_cli_submits (C : Crypto) (run : Bytes → List Bytes → Res Bytes) (net : NetworkInfo) (path : Bytes) (t : Tx) (k : Nat) (bs : Bytes)
    (h : Transaction.bytes C t k = .ok bs) :
    ∃ hexa pre post, IsHexOf hexa bs ∧
      cliSubmitTx C run net path t k =
        run (pre ++ hexa ++ post) (cliArgs net [asc ['s','u','b','m','i','t'], asc ['-','-','t','x','-','f','i','l','e',' '] ++ path]) ∧
      pre = asc ['{','\n','\t','"','t','y','p','e','"',':',' ','"','"',',','\n','\t','"','d','e','s','c','r','i','p','t','i','o','n','"',':',' ','"','"',',','\n',
        '\t','"','c','b','o','r','H','e','x','"',':',' ','"'] ∧ post = asc ['"','\n','}'] := by
  refine ⟨Hex.encode bs, _, _, isHexOf_encode bs, ?_, rfl, rfl⟩
  unfold cliSubmitTx Transaction.hex
  rw [h]
  rfl

/-- A transaction with input, output, witness and metadata serialises, as the hypotheses ask; the service accepting or rejecting it. -/
example : (∃ bs, Transaction.bytes sampleCrypto sampleTx 5 = .ok bs) ∧
    ∀ status : Int, ∃ body e, bfSubmitTx sampleCrypto (fun r => .ok ⟨status, r.body⟩) MainNet [1] sampleTx 5 = .ok (body, e) ∧ (e = true ↔ status ≠ 200) := by
  refine ⟨⟨_, rfl⟩, fun status => ⟨_, _, (C63_blockfrost_submits sampleCrypto _ MainNet [1] sampleTx 5).1 _ rfl _ rfl, ?_⟩⟩
  exact decide_eq_true_iff

/-! ### Numbers in the texts handed over and received -/

theorem decFrom_snoc (s : Bytes) (c : UInt8) : decFrom 0 (s ++ [c]) = 10 * decFrom 0 s + (c.toNat - 48) := by
  unfold decFrom
  rw [List.foldl_append, List.foldl_cons, List.foldl_nil]

theorem decimal_spec (n : Nat) : decimal n ≠ [] ∧ Digits (decimal n) ∧ decFrom 0 (decimal n) = n ∧ ((decimal n).head? = some 48 → n = 0) := by
  induction n using Nat.strongRecOn with
  | ind n ih =>
    rw [decimal.eq_1]
    have dig : ∀ d < 10, (48 ≤ UInt8.ofNat (48 + d) ∧ UInt8.ofNat (48 + d) ≤ 57) ∧ (UInt8.ofNat (48 + d)).toNat - 48 = d ∧ (UInt8.ofNat (48 + d) = 48 → d = 0) := by
      decide
    by_cases h : n < 10
    · rw [dif_pos h]
      obtain ⟨d1, d2, d3⟩ := dig n h
      refine ⟨List.cons_ne_nil _ _, ?_, ?_, ?_⟩
      · intro c hc; rw [List.mem_singleton] at hc; subst hc; exact d1
      · show 10 * 0 + _ = n; omega
      · intro he; exact d3 (Option.some.inj he)
    · rw [dif_neg h]
      obtain ⟨i1, i2, i3, i4⟩ := ih (n / 10) (by omega)
      obtain ⟨d1, d2, -⟩ := dig (n % 10) (by omega)
      refine ⟨by simp, ?_, ?_, ?_⟩
      · intro c hc
        rcases List.mem_append.1 hc with hc | hc
        · exact i2 c hc
        · rw [List.mem_singleton] at hc; subst hc; exact d1
      · rw [decFrom_snoc, i3, d2]; omega
      · intro he
        have := i4 (by
          cases hd : decimal (n / 10) with
          | nil => exact absurd hd i1
          | cons a l => rw [hd] at he; exact he)
        omega

/-- The last argument names the network given: for the network with number 0 it is `--mainnet`, otherwise it is one word made of
`--testnet-magic`, a space, and the protocol magic in decimal without leading zeros. -/
theorem C44_cli_argument (net : NetworkInfo) (args : List Bytes) :
    (net.networkId = 0 → cliArgs net args = args ++ [asc ['-','-','m','a','i','n','n','e','t']]) ∧
    (net.networkId ≠ 0 → ∃ digits, cliArgs net args = args ++ [asc ['-','-','t','e','s','t','n','e','t','-','m','a','g','i','c',' '] ++ digits] ∧
      digits ≠ [] ∧ Digits digits ∧ decFrom 0 digits = net.protocolMagic.toNat ∧ (digits.head? = some 48 → net.protocolMagic = 0)) := by
  unfold cliArgs
  dsimp only
  constructor
  · intro h; rw [if_pos h]
  · intro h
    rw [if_neg h]
    obtain ⟨d1, d2, d3, d4⟩ := decimal_spec net.protocolMagic.toNat
    refine ⟨_, rfl, d1, d2, d3, fun he => ?_⟩
    have := d4 he
    exact UInt32.toNat_inj.1 this

/-- Decimal digits with an optional sign in front, and the number they denote. -/
def WritesInt (s : Bytes) (n : Int) : Prop :=
  ∃ sign digits, s = sign ++ digits ∧ digits ≠ [] ∧ Digits digits ∧
    ((sign = [] ∨ sign = [43]) ∧ n = decFrom 0 digits ∨ sign = [45] ∧ n = -(decFrom 0 digits : Int))

theorem Atoi_iff (s : Bytes) (n : Int) : Atoi s = .ok n ↔ WritesInt s n ∧ -2 ^ 63 ≤ n ∧ n < 2 ^ 63 := by
  match s with
  | [] =>
    unfold Atoi
    refine Iff.intro (fun h => by cases h) ?_
    rintro ⟨⟨sign, digits, e, hd, _⟩, _⟩
    exact absurd (List.append_eq_nil_iff.1 e.symm).2 hd
  | c :: cs =>
    unfold Atoi
    dsimp only
    constructor
    · intro h
      obtain ⟨un, hun, h⟩ := bind_ok h
      obtain ⟨p1, p2, p3, p4⟩ := (ParseUint_ok _ _ _).1 hun
      subst p3
      by_cases h45 : c = 45
      · subst h45
        rw [if_pos (Or.inl rfl)] at p1 p2 p4 h
        rw [if_pos rfl] at h
        by_cases hb : decFrom 0 cs > 2 ^ 63
        · rw [if_pos hb] at h; cases h
        · rw [if_neg hb] at h
          have := Res.ok.inj h
          subst this
          exact ⟨⟨[45], cs, rfl, p1, p2, Or.inr ⟨rfl, rfl⟩⟩, by omega, by omega⟩
      · rw [if_neg h45] at h
        by_cases h43 : c = 43
        · subst h43
          rw [if_pos (Or.inr rfl)] at p1 p2 p4 h
          by_cases hb : decFrom 0 cs ≥ 2 ^ 63
          · rw [if_pos hb] at h; cases h
          · rw [if_neg hb] at h
            have := Res.ok.inj h
            subst this
            exact ⟨⟨[43], cs, rfl, p1, p2, Or.inl ⟨Or.inr rfl, rfl⟩⟩, by omega, by omega⟩
        · have hs : ¬ (c = 45 ∨ c = 43) := by rintro (x | x) <;> contradiction
          rw [if_neg hs] at p1 p2 p4 h
          by_cases hb : decFrom 0 (c :: cs) ≥ 2 ^ 63
          · rw [if_pos hb] at h; cases h
          · rw [if_neg hb] at h
            have := Res.ok.inj h
            subst this
            exact ⟨⟨[], c :: cs, rfl, p1, p2, Or.inl ⟨Or.inl rfl, rfl⟩⟩, by omega, by omega⟩
    · rintro ⟨⟨sign, digits, e, d1, d2, hs⟩, l, u⟩
      rcases hs with ⟨rfl | rfl, rfl⟩ | ⟨rfl, rfl⟩
      · rw [List.nil_append] at e
        subst e
        exact Atoi_digits (c :: cs) d1 d2 (by omega)
      · obtain ⟨rfl, rfl⟩ := List.cons.inj e
        rw [if_pos (Or.inr rfl)]
        rw [(ParseUint_ok 64 cs _).2 ⟨d1, d2, rfl, by omega⟩, Res.ok_bind, if_neg (by decide), if_neg (by omega)]
        rfl
      · obtain ⟨rfl, rfl⟩ := List.cons.inj e
        rw [if_pos (Or.inl rfl)]
        rw [(ParseUint_ok 64 cs _).2 ⟨d1, d2, rfl, by omega⟩, Res.ok_bind, if_pos rfl, if_neg (by omega)]
        rfl

/-- Exactly which quantities are accepted, and what becomes of them: a UTXO with one lovelace entry is converted precisely when the
quantity is a number of at least `-2^63` and below `2^63` in decimal (a sign is allowed), and the amount is that number modulo `2^64`. -/
theorem C46_quantity_exact (u : Utxo) (pre post : List Amount) (q : Bytes) (e : u.amount = pre ++ ⟨lovelaceUnit, q⟩ :: post)
    (hn : ∀ a ∈ pre ++ post, a.unit ≠ lovelaceUnit) (is : List TxInput) :
    convertUTXOs [u] = .ok is ↔ ∃ n i, WritesInt q n ∧ -2 ^ 63 ≤ n ∧ n < 2 ^ 63 ∧ is = [i] ∧ (i.amount.toNat : Int) = n % 2 ^ 64 ∧
      (i.index.toNat : Int) = u.outputIndex % 2 ^ 16 ∧ i.txHash = (NewTxInput u.txHash 0 0).txHash := by
  have hsum : sumAmount u.amount 0 = (Atoi q).bind (fun v => .ok (toUint v)) := by
    rw [e, sumAmount_skip pre _ (fun a ha => hn a (List.mem_append_left _ ha)), sumAmount, lovelace_eq, if_pos rfl]
    cases Atoi q with
    | ok v =>
      have := sumAmount_skip post [] (fun a ha => hn a (List.mem_append_right _ ha)) (toUint v)
      rw [List.append_nil] at this
      exact this
    | err m => rfl
    | panic => rfl
  have htx : (NewTxInput u.txHash 0 0).txHash = (NewTxInput u.txHash 0 0).txHash := rfl
  rw [convertUTXOs, hsum]
  constructor
  · intro h
    obtain ⟨a, ha, h⟩ := bind_ok h
    cases hA : Atoi q with
    | err m => rw [hA] at ha; cases ha
    | panic => rw [hA] at ha; cases ha
    | ok v =>
      rw [hA] at ha
      have := Res.ok.inj ha
      subst this
      have h := Res.ok.inj h
      obtain ⟨d, l, r⟩ := (Atoi_iff q v).1 hA
      exact ⟨v, _, d, l, r, h.symm, toNat_toUint v, toNat_ofInt16 _, rfl⟩
  · rintro ⟨n, i, d, l, r, rfl, h1, h2, h3⟩
    rw [(Atoi_iff q n).2 ⟨d, l, r⟩]
    show Res.ok [_] = _
    congr 2
    obtain ⟨ih, ii, ia⟩ := i
    have e1 : ia = toUint n := UInt64.toNat_inj.1 (by have := toNat_toUint n; dsimp only at h1; omega)
    have e2 : ii = UInt16.ofInt u.outputIndex := UInt16.toNat_inj.1 (by have := toNat_ofInt16 u.outputIndex; dsimp only at h2; omega)
    dsimp only at h3
    subst e1 e2 h3
    rfl

/-- The smallest 64-bit number is one of them. -/
example : WritesInt (asc ['-','9','2','2','3','3','7','2','0','3','6','8','5','4','7','7','5','8','0','8']) (-2 ^ 63) :=
  ⟨[45], asc ['9','2','2','3','3','7','2','0','3','6','8','5','4','7','7','5','8','0','8'], rfl, by decide, by unfold Digits; decide,
    Or.inr ⟨rfl, by decide⟩⟩

/-- Exactly which answers are accepted: those whose minimum for an output is a number of at least `-2^63` and below `2^63`; it is
taken modulo `2^64`. -/
theorem C62_min_utxo_exact (p : EpochParameters) (q : FullProtocol) :
    convertParams p = .ok q → ∃ n, WritesInt p.minUtxo n ∧ -2 ^ 63 ≤ n ∧ n < 2 ^ 63 ∧ (q.params.minUTXOValue.toNat : Int) = n % 2 ^ 64 := by
  intro h
  obtain ⟨n, hA, h⟩ := bind_ok h
  obtain ⟨d, l, r⟩ := (Atoi_iff _ n).1 hA
  have h := Res.ok.inj h
  subst h
  exact ⟨n, d, l, r, toNat_toUint n⟩

theorem C62_min_utxo_accepted (p : EpochParameters) (n : Int) (d : WritesInt p.minUtxo n) (l : -2 ^ 63 ≤ n) (r : n < 2 ^ 63) :
    ∃ q, convertParams p = .ok q := by
  unfold convertParams
  rw [(Atoi_iff _ n).2 ⟨d, l, r⟩]
  exact ⟨_, rfl⟩

end Cardano.Props
