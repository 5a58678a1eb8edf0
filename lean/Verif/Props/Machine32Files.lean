import Verif.Json.Word32
import Verif.Props.Protocol
import Verif.Props.Machine32
/-!
# Property C150, protocol parameters and tips: machines where `uint` has 32 bits
-/
set_option autoImplicit false

namespace Cardano.Props
open Json Node Transaction Spec

/-- The member has one of the names and a number of more than 32 bits (but at most 64). -/
def TooLarge (names : List Bytes) (m : Bytes × JVal) : Prop :=
  (∃ name ∈ names, SameName m.1 name) ∧ ∃ lit n, m.2 = .num lit ∧ UintLit 64 lit n ∧ 2 ^ 32 ≤ n

/-- The data is a JSON object where one of the names has a number of more than 32 bits (but at most 64). -/
def HasTooLarge (names : List Bytes) (data : Bytes) : Prop := ∃ ms, JsonText data (.obj ms) ∧ ∃ m ∈ ms, TooLarge names m

/-- The fields of type `uint` in protocol parameters. -/
def protocolNames : List Bytes := [nTxFeePerByte, nTxFeeFixed, nMaxTxSize, nMinUTxOValue]

/-- The fields of type `uint` in a tip. -/
def tipNames : List Bytes := [nSlot, nEpoch, nBlock]

namespace Machine32

theorem storeUint32_of (old : Nat) (v : JVal) :
    (storeUint 32 old v = storeUint 64 old v ∧ ¬ ∃ lit n, v = .num lit ∧ UintLit 64 lit n ∧ 2 ^ 32 ≤ n) ∨
      ((∃ lit n, v = .num lit ∧ UintLit 64 lit n ∧ 2 ^ 32 ≤ n) ∧ (storeUint 32 old v).2 ≠ none) := by
  cases v with
  | num lit =>
    unfold storeUint
    dsimp only
    cases h : ParseUint 64 lit with
    | ok n =>
      dsimp only
      by_cases c : n < 2 ^ 32
      · left
        rw [if_pos c, if_pos (by omega)]
        refine ⟨rfl, ?_⟩
        rintro ⟨lit', n', e, h1, h2⟩
        injection e with e
        subst e
        have := ((uintLit_iff 64 _ _ (by decide)).1 h1).1
        rw [h] at this
        injection this with this
        omega
      · right
        rw [if_neg c]
        have : n < 2 ^ 64 := by
          obtain ⟨_, _, _, h4⟩ := (ParseUint_ok _ _ _).1 h
          omega
        exact ⟨⟨lit, n, rfl, (uintLit_iff 64 _ _ (by decide)).2 ⟨h, this⟩, by omega⟩, by simp⟩
    | err e =>
      left
      refine ⟨rfl, ?_⟩
      rintro ⟨lit', n', e', h1, h2⟩
      injection e' with e'
      subst e'
      have := ((uintLit_iff 64 _ _ (by decide)).1 h1).1
      rw [h] at this
      exact nomatch this
    | panic =>
      left
      refine ⟨rfl, ?_⟩
      rintro ⟨lit', n', e', h1, h2⟩
      injection e' with e'
      subst e'
      have := ((uintLit_iff 64 _ _ (by decide)).1 h1).1
      rw [h] at this
      exact nomatch this
  | null => exact .inl ⟨rfl, by rintro ⟨_, _, e, _⟩; exact nomatch e⟩
  | bool b => exact .inl ⟨rfl, by rintro ⟨_, _, e, _⟩; exact nomatch e⟩
  | str s => exact .inl ⟨rfl, by rintro ⟨_, _, e, _⟩; exact nomatch e⟩
  | arr vs => exact .inl ⟨rfl, by rintro ⟨_, _, e, _⟩; exact nomatch e⟩
  | obj ms => exact .inl ⟨rfl, by rintro ⟨_, _, e, _⟩; exact nomatch e⟩

theorem saveError_ne (a b : Option String) (h : b ≠ none) : saveError a b ≠ none := by
  cases a with
  | none => exact h
  | some x => exact fun e => nomatch e

theorem saveError_old (a b : Option String) (h : a ≠ none) : saveError a b ≠ none := by
  cases a with
  | none => exact absurd rfl h
  | some x => exact fun e => nomatch e

/-- A member that both machines treat alike, or one that gives an error. -/
def Step {α : Type} (names : List Bytes) (f f' : Out α → Bytes × JVal → Out α) : Prop :=
  ∀ st m, (f st m = f' st m ∧ ¬ TooLarge names m) ∨ (TooLarge names m ∧ (f st m).err ≠ none)

theorem fold {α : Type} (names : List Bytes) (f f' : Out α → Bytes × JVal → Out α) (hs : Step names f f') (hm : ∀ st m, st.err ≠ none → (f st m).err ≠ none)
    (ms : List (Bytes × JVal)) : ∀ st : Out α, (ms.foldl f st = ms.foldl f' st ∧ ¬ ∃ m ∈ ms, TooLarge names m) ∨ ((∃ m ∈ ms, TooLarge names m) ∧ (ms.foldl f st).err ≠ none) := by
  have stay : ∀ (l : List (Bytes × JVal)) (st : Out α), st.err ≠ none → (l.foldl f st).err ≠ none := by
    intro l
    induction l with
    | nil => exact fun _ h => h
    | cons m l ih => exact fun st h => ih _ (hm st m h)
  induction ms with
  | nil => exact fun st => .inl ⟨rfl, by simp⟩
  | cons m ms ih =>
    intro st
    rw [List.foldl_cons, List.foldl_cons]
    rcases hs st m with ⟨h1, h2⟩ | ⟨h1, h2⟩
    · rw [← h1]
      rcases ih (f st m) with ⟨h3, h4⟩ | ⟨⟨m', h3, h4⟩, h5⟩
      · refine .inl ⟨h3, ?_⟩
        rintro ⟨m', hm', ht⟩
        rcases List.mem_cons.1 hm' with rfl | hm'
        · exact h2 ht
        · exact h4 ⟨m', hm', ht⟩
      · exact .inr ⟨⟨m', List.mem_cons_of_mem _ h3, h4⟩, h5⟩
    · exact .inr ⟨⟨m, List.mem_cons_self, h1⟩, stay _ _ h2⟩

theorem storeVersion_old (st : Out (UInt8 × UInt8)) (v : JVal) (h : st.err ≠ none) : (storeVersion st v).err ≠ none := by
  unfold storeVersion
  cases v with
  | obj ms =>
    dsimp only
    exact fun e => h (version_err ms st e)
  | null => exact h
  | _ => exact saveError_old _ _ h

theorem storeMember32_old (st : Out FullProtocol) (m : Bytes × JVal) (h : st.err ≠ none) : (storeMember32 st m).err ≠ none := by
  unfold storeMember32
  dsimp only
  repeat' split
  all_goals first | exact saveError_old _ _ h | exact storeVersion_old _ _ h | exact h

theorem storeTipMember32_old (st : Out NetworkTip) (m : Bytes × JVal) (h : st.err ≠ none) : (storeTipMember32 st m).err ≠ none := by
  unfold storeTipMember32
  dsimp only
  repeat' split
  all_goals first | exact saveError_old _ _ h | exact h

theorem not_tooLarge (names : List Bytes) (m : Bytes × JVal) (h : ∀ name ∈ names, ¬ SameName m.1 name) : ¬ TooLarge names m :=
  fun ⟨⟨name, h1, h2⟩, _⟩ => h name h1 h2

theorem step_protocol : Step protocolNames storeMember32 storeMember := by
  intro st m
  obtain ⟨k, v⟩ := m
  have hit : ∀ name ∈ protocolNames, SameName k name → ∀ old, (storeUint 32 old v = storeUint 64 old v ∧ ¬ TooLarge protocolNames (k, v)) ∨
      (TooLarge protocolNames (k, v) ∧ (storeUint 32 old v).2 ≠ none) := by
    intro name hn hk old
    rcases storeUint32_of old v with ⟨h1, h2⟩ | ⟨h1, h2⟩
    · exact .inl ⟨h1, fun h => h2 h.2⟩
    · exact .inr ⟨⟨⟨name, hn, hk⟩, h1⟩, h2⟩
  unfold storeMember32 storeMember
  by_cases c1 : keyMatches nTxFeePerByte k = true
  · simp only [c1, if_true]
    rcases hit _ (by decide) ((keyMatches_iff _ k (by decide)).1 c1) st.value.params.txFeePerByte.toNat with ⟨h1, h2⟩ | ⟨h1, h2⟩
    · rw [h1]; exact .inl ⟨rfl, h2⟩
    · exact .inr ⟨h1, saveError_ne _ _ h2⟩
  have n1 : ¬ SameName k nTxFeePerByte := by rwa [← keyMatches_iff _ k (by decide)]
  by_cases c2 : keyMatches nTxFeeFixed k = true
  · simp only [c1, c2, if_true, Bool.false_eq_true, if_false]
    rcases hit _ (by decide) ((keyMatches_iff _ k (by decide)).1 c2) st.value.params.txFeeFixed.toNat with ⟨h1, h2⟩ | ⟨h1, h2⟩
    · rw [h1]; exact .inl ⟨rfl, h2⟩
    · exact .inr ⟨h1, saveError_ne _ _ h2⟩
  have n2 : ¬ SameName k nTxFeeFixed := by rwa [← keyMatches_iff _ k (by decide)]
  by_cases c3 : keyMatches nMaxTxSize k = true
  · simp only [c1, c2, c3, if_true, Bool.false_eq_true, if_false]
    rcases hit _ (by decide) ((keyMatches_iff _ k (by decide)).1 c3) st.value.params.maxTxSize.toNat with ⟨h1, h2⟩ | ⟨h1, h2⟩
    · rw [h1]; exact .inl ⟨rfl, h2⟩
    · exact .inr ⟨h1, saveError_ne _ _ h2⟩
  have n3 : ¬ SameName k nMaxTxSize := by rwa [← keyMatches_iff _ k (by decide)]
  by_cases c4 : keyMatches nProtocolVersion k = true
  · simp only [c1, c2, c3, c4, if_true, Bool.false_eq_true, if_false]
    refine .inl ⟨trivial, not_tooLarge _ _ ?_⟩
    have n4 := names_disjoint _ nMinUTxOValue k ((keyMatches_iff _ k (by decide)).1 c4) (by decide) (by decide) (by decide)
    simp only [protocolNames, List.forall_mem_cons, List.not_mem_nil, false_imp_iff, implies_true, and_true]
    exact ⟨n1, n2, n3, n4⟩
  by_cases c5 : keyMatches nMinUTxOValue k = true
  · simp only [c1, c2, c3, c4, c5, if_true, Bool.false_eq_true, if_false]
    rcases hit _ (by decide) ((keyMatches_iff _ k (by decide)).1 c5) st.value.params.minUTXOValue.toNat with ⟨h1, h2⟩ | ⟨h1, h2⟩
    · rw [h1]; exact .inl ⟨rfl, h2⟩
    · exact .inr ⟨h1, saveError_ne _ _ h2⟩
  have n5 : ¬ SameName k nMinUTxOValue := by rwa [← keyMatches_iff _ k (by decide)]
  simp only [c1, c2, c3, c4, c5, Bool.false_eq_true, if_false]
  refine .inl ⟨trivial, not_tooLarge _ _ ?_⟩
  simp only [protocolNames, List.forall_mem_cons, List.not_mem_nil, false_imp_iff, implies_true, and_true]
  exact ⟨n1, n2, n3, n5⟩

theorem step_tip : Step tipNames storeTipMember32 storeTipMember := by
  intro st m
  obtain ⟨k, v⟩ := m
  have hit : ∀ name ∈ tipNames, SameName k name → ∀ old, (storeUint 32 old v = storeUint 64 old v ∧ ¬ TooLarge tipNames (k, v)) ∨
      (TooLarge tipNames (k, v) ∧ (storeUint 32 old v).2 ≠ none) := by
    intro name hn hk old
    rcases storeUint32_of old v with ⟨h1, h2⟩ | ⟨h1, h2⟩
    · exact .inl ⟨h1, fun h => h2 h.2⟩
    · exact .inr ⟨⟨⟨name, hn, hk⟩, h1⟩, h2⟩
  unfold storeTipMember32 storeTipMember
  by_cases c1 : keyMatches nSlot k = true
  · simp only [c1, if_true]
    rcases hit _ (by decide) ((keyMatches_iff _ k (by decide)).1 c1) st.value.slot.toNat with ⟨h1, h2⟩ | ⟨h1, h2⟩
    · rw [h1]; exact .inl ⟨rfl, h2⟩
    · exact .inr ⟨h1, saveError_ne _ _ h2⟩
  have n1 : ¬ SameName k nSlot := by rwa [← keyMatches_iff _ k (by decide)]
  by_cases c2 : keyMatches nEpoch k = true
  · simp only [c1, c2, if_true, Bool.false_eq_true, if_false]
    rcases hit _ (by decide) ((keyMatches_iff _ k (by decide)).1 c2) st.value.epoch.toNat with ⟨h1, h2⟩ | ⟨h1, h2⟩
    · rw [h1]; exact .inl ⟨rfl, h2⟩
    · exact .inr ⟨h1, saveError_ne _ _ h2⟩
  have n2 : ¬ SameName k nEpoch := by rwa [← keyMatches_iff _ k (by decide)]
  by_cases c3 : keyMatches nBlock k = true
  · simp only [c1, c2, c3, if_true, Bool.false_eq_true, if_false]
    rcases hit _ (by decide) ((keyMatches_iff _ k (by decide)).1 c3) st.value.block.toNat with ⟨h1, h2⟩ | ⟨h1, h2⟩
    · rw [h1]; exact .inl ⟨rfl, h2⟩
    · exact .inr ⟨h1, saveError_ne _ _ h2⟩
  have n3 : ¬ SameName k nBlock := by rwa [← keyMatches_iff _ k (by decide)]
  simp only [c1, c2, c3, Bool.false_eq_true, if_false]
  refine .inl ⟨trivial, not_tooLarge _ _ ?_⟩
  simp only [tipNames, List.forall_mem_cons, List.not_mem_nil, false_imp_iff, implies_true, and_true]
  exact ⟨n1, n2, n3⟩

theorem noObj (names : List Bytes) (data : Bytes) (h : ∀ ms, parse data ≠ some (.obj ms)) : ¬ HasTooLarge names data :=
  fun ⟨ms, h1, _⟩ => h ms ((parse_iff _ _).2 h1)

theorem unmarshalProtocol32_of (data : Bytes) (p : FullProtocol) :
    (unmarshalProtocol32 data p = unmarshalProtocol data p ∧ ¬ HasTooLarge protocolNames data) ∨
      (HasTooLarge protocolNames data ∧ (unmarshalProtocol32 data p).err ≠ none) := by
  unfold unmarshalProtocol32 unmarshalProtocol
  cases h : parse data with
  | none => exact .inl ⟨rfl, noObj _ _ (by rw [h]; exact fun _ e => nomatch e)⟩
  | some v =>
    cases v with
    | obj ms =>
      dsimp only
      rcases fold _ _ _ step_protocol storeMember32_old ms ⟨p, none⟩ with ⟨h1, h2⟩ | ⟨h1, h2⟩
      · refine .inl ⟨h1, ?_⟩
        rintro ⟨ms', h3, h4⟩
        rw [← parse_iff, h] at h3
        injection h3 with h3
        injection h3 with h3
        subst h3
        exact h2 h4
      · exact .inr ⟨⟨ms, (parse_iff _ _).1 h, h1⟩, h2⟩
    | _ => exact .inl ⟨rfl, noObj _ _ (by rw [h]; exact fun _ e => nomatch e)⟩

theorem unmarshalTip32_of (data : Bytes) (p : NetworkTip) :
    (unmarshalTip32 data p = unmarshalTip data p ∧ ¬ HasTooLarge tipNames data) ∨
      (HasTooLarge tipNames data ∧ (unmarshalTip32 data p).err ≠ none) := by
  unfold unmarshalTip32 unmarshalTip
  cases h : parse data with
  | none => exact .inl ⟨rfl, noObj _ _ (by rw [h]; exact fun _ e => nomatch e)⟩
  | some v =>
    cases v with
    | obj ms =>
      dsimp only
      rcases fold _ _ _ step_tip storeTipMember32_old ms ⟨p, none⟩ with ⟨h1, h2⟩ | ⟨h1, h2⟩
      · refine .inl ⟨h1, ?_⟩
        rintro ⟨ms', h3, h4⟩
        rw [← parse_iff, h] at h3
        injection h3 with h3
        injection h3 with h3
        subst h3
        exact h2 h4
      · exact .inr ⟨⟨ms, (parse_iff _ _).1 h, h1⟩, h2⟩
    | _ => exact .inl ⟨rfl, noObj _ _ (by rw [h]; exact fun _ e => nomatch e)⟩

end Machine32

/-- **C150: parameter files.** `LoadProtocol` gives what it gives on a 64-bit machine, error included, unless one of the four numbers has more than 32 bits; then it reports an error. -/
theorem C150_parameter_file (read : Bytes → Res Bytes) (fp : Bytes) :
    (loadProtocol32 read fp = loadProtocol read fp ∧ ¬ ∃ data, read fp = .ok data ∧ HasTooLarge protocolNames data) ∨
      ((∃ data, read fp = .ok data ∧ HasTooLarge protocolNames data) ∧ (loadProtocol32 read fp).err ≠ none) := by
  unfold loadProtocol32 loadProtocol
  cases h : read fp with
  | ok data =>
    dsimp only
    rcases Machine32.unmarshalProtocol32_of data zeroProtocol with ⟨h1, h2⟩ | ⟨h1, h2⟩
    · refine .inl ⟨h1, ?_⟩
      rintro ⟨d, e, h3⟩
      injection e with e
      subst e
      exact h2 h3
    · exact .inr ⟨⟨data, rfl, h1⟩, h2⟩
  | err e => exact .inl ⟨rfl, by rintro ⟨_, e, _⟩; exact nomatch e⟩
  | panic => exact .inl ⟨rfl, by rintro ⟨_, e, _⟩; exact nomatch e⟩

/-- **C150: answers of the node program.** `ProtocolParameters` and `QueryTip` give what they give on a 64-bit machine, error included, unless a number has more than 32 bits;
then they report an error. -/
theorem C150_node_answers (run : List Bytes → Res Bytes) (net : NetworkInfo) :
    ((cliProtocolParameters32 run net = cliProtocolParameters run net ∧
      ¬ HasTooLarge protocolNames (outputOf (execCommand run net [asc ['q','u','e','r','y'], asc ['p','r','o','t','o','c','o','l','-','p','a','r','a','m','e','t','e','r','s']]))) ∨ (cliProtocolParameters32 run net).err ≠ none ∧
      HasTooLarge protocolNames (outputOf (execCommand run net [asc ['q','u','e','r','y'], asc ['p','r','o','t','o','c','o','l','-','p','a','r','a','m','e','t','e','r','s']]))) ∧
    ((cliQueryTip32 run net = cliQueryTip run net ∧ ¬ HasTooLarge tipNames (outputOf (execCommand run net [asc ['q','u','e','r','y'], asc ['t','i','p']]))) ∨ (cliQueryTip32 run net).err ≠ none ∧
      HasTooLarge tipNames (outputOf (execCommand run net [asc ['q','u','e','r','y'], asc ['t','i','p']]))) := by
  constructor
  · unfold cliProtocolParameters32 cliProtocolParameters
    dsimp only
    rcases Machine32.unmarshalProtocol32_of (outputOf (execCommand run net [asc ['q','u','e','r','y'], asc ['p','r','o','t','o','c','o','l','-','p','a','r','a','m','e','t','e','r','s']])) zeroProtocol with ⟨h1, h2⟩ | ⟨h1, h2⟩
    · rw [h1]; exact .inl ⟨rfl, h2⟩
    · refine .inr ⟨?_, h1⟩
      split
      · exact fun e => nomatch e
      · contradiction
  · unfold cliQueryTip32 cliQueryTip
    dsimp only
    rcases Machine32.unmarshalTip32_of (outputOf (execCommand run net [asc ['q','u','e','r','y'], asc ['t','i','p']])) ⟨0, 0, 0⟩ with ⟨h1, h2⟩ | ⟨h1, h2⟩
    · rw [h1]; exact .inl ⟨rfl, h2⟩
    · refine .inr ⟨?_, h1⟩
      split
      · exact fun e => nomatch e
      · contradiction

/-- **C150: parameters from the service.** With fees and size that the machine's `int` holds: an error exactly if the least value of an output is not written as a number from
`-2^31` to `2^31 - 1`; otherwise, unless that number is negative, the parameters of a 64-bit machine. -/
theorem C150_service_parameters (p : EpochParameters) (ha : 0 ≤ p.minFeeA ∧ p.minFeeA < 2 ^ 31) (hb : 0 ≤ p.minFeeB ∧ p.minFeeB < 2 ^ 31)
    (hm : 0 ≤ p.maxTxSize ∧ p.maxTxSize < 2 ^ 31) :
    (∀ q, convertParams32 p = .ok q → q.params.minUTXOValue.toNat < 2 ^ 31 → convertParams p = .ok q) ∧
      ((∃ q, convertParams32 p = .ok q) ↔ ∃ n, WritesInt p.minUtxo n ∧ -2 ^ 31 ≤ n ∧ n < 2 ^ 31) := by
  unfold convertParams32 convertParams
  refine ⟨?_, ?_⟩
  · intro q h hq
    obtain ⟨n, hn, h⟩ := Addr.bind_ok h
    cases h
    have e := (Atoi32_iff _ _).1 hn
    have hn32 := toUint32_nat n
    have h0 : 0 ≤ n := by
      dsimp only at hq
      omega
    rw [Atoi32_Atoi _ _ hn, Res.ok_bind, toUint32_eq _ ha.1 (by omega), toUint32_eq _ hb.1 (by omega), toUint32_eq _ hm.1 (by omega),
      toUint32_eq n h0 (by omega)]
    rfl
  · constructor
    · rintro ⟨q, h⟩
      obtain ⟨n, hn, -⟩ := Addr.bind_ok h
      exact ⟨n, (Atoi32_iff _ _).1 hn⟩
    · rintro ⟨n, hn⟩
      rw [(Atoi32_iff _ _).2 hn]
      exact ⟨_, rfl⟩

/-! ### Concrete cases -/

/-- The usual file is read as on a 64-bit machine; a fixed fee of `2^32` is read there and refused here; likewise a tip. -/
example : loadProtocol32 (fun _ => .ok sampleFile) [] = ⟨⟨⟨44, 155381, 16384, 1000000⟩, 4, 0⟩, none⟩ ∧
    (loadProtocol (fun _ => .ok (asc ['{','"','t','x','F','e','e','F','i','x','e','d','"',':','4','2','9','4','9','6','7','2','9','6','}'])) []) = ⟨⟨⟨0, 4294967296, 0, 0⟩, 0, 0⟩, none⟩ ∧
    (loadProtocol32 (fun _ => .ok (asc ['{','"','t','x','F','e','e','F','i','x','e','d','"',':','4','2','9','4','9','6','7','2','9','6','}'])) []).err ≠ none ∧
    cliQueryTip32 (fun _ => .ok (asc ['{','"','s','l','o','t','"',':','4','2','9','4','9','6','7','2','9','5','}'])) MainNet = ⟨⟨4294967295, 0, 0⟩, none⟩ ∧
    (cliQueryTip32 (fun _ => .ok (asc ['{','"','s','l','o','t','"',':','4','2','9','4','9','6','7','2','9','6','}'])) MainNet).err ≠ none := by decide +kernel

/-- The parameters of 2021 from the service. -/
example : convertParams32 ⟨44, 155381, 16384, 7, 0, asc ['3','4','4','8','2']⟩ = .ok ⟨⟨44, 155381, 16384, 34482⟩, 7, 0⟩ := by decide +kernel

end Cardano.Props
