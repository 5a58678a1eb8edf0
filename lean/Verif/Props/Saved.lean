import Verif.Props.Protocol
import Verif.Json.EncodeProofs
import Verif.Examples.Node
import Verif.Props.Examples
/-!
# C121, C122: what is written as JSON can be read again; the program that prints the answers of the service
-/
set_option autoImplicit false

namespace Cardano.Props
open Cardano Json Node Transaction Examples Spec Cbor Ledger

/-! ### C121 -/

theorem once_of (a : List (Bytes × JVal)) (k : Bytes) (v : JVal) (b : List (Bytes × JVal)) (hk : SameName k k) (h : ∀ m ∈ a ++ b, ¬ SameName m.1 k) :
    Once (a ++ (k, v) :: b) k v := ⟨a, k, b, rfl, hk, h⟩

theorem sameName_refl (k : Bytes) : SameName k k := by
  induction k with
  | nil => exact .nil
  | cons c k ih => exact .char c c k k (Or.inl rfl) ih

theorem other_names (name : Bytes) (hn : Ascii name) (a : List Bytes) (h : ∀ k ∈ a, Ascii k ∧ k.map lowerN ≠ name.map lowerN) :
    ∀ k ∈ a, ¬ SameName k name := by
  intro k hk h'
  exact (h k hk).2 (sameName_lower k k name (sameName_refl k) h' (h k hk).1 hn)

/-- The names are those of other fields. -/
def Others (k : Bytes) (names : List Bytes) : Prop := ∀ x ∈ names, Ascii x ∧ x.map lowerN ≠ k.map lowerN

theorem others_member (a b : List (Bytes × JVal)) (k : Bytes) (hk : Ascii k) (h : Others k (a.map Prod.fst ++ b.map Prod.fst)) :
    ∀ m ∈ a ++ b, ¬ SameName m.1 k := by
  intro m hm
  refine other_names k hk _ h m.1 ?_
  rw [← List.map_append]
  exact List.mem_map_of_mem hm

theorem field_once (bits : Nat) (a b : List (Bytes × JVal)) (k : Bytes) (n : Nat) (hk : Ascii k) (h : Others k (a.map Prod.fst ++ b.map Prod.fst)) (hn : n < 2 ^ bits) :
    FieldIs bits k (a ++ (k, uintVal n) :: b) n :=
  fieldIs_once bits k (decimal n) _ n (once_of a k _ b (sameName_refl k) (others_member a b k hk h)) (decimal_uintLit bits n hn)

theorem field_absent (bits : Nat) (k : Bytes) (ms : List (Bytes × JVal)) (hk : Ascii k) (h : Others k (ms.map Prod.fst)) : FieldIs bits k ms 0 :=
  (fieldIs_none bits k ms 0 (by simpa using others_member ms [] k hk (by simpa using h))).2 rfl

theorem protocolVal_writable (p : FullProtocol) : Writable (protocolVal p) 10000 := by
  refine ⟨9999, rfl, ?_⟩
  simp only [WritableMembers, WritableMember, uintVal, Writable, and_true]
  exact ⟨⟨by decide, decimal_numText _⟩, ⟨by decide, decimal_numText _⟩, ⟨by decide, decimal_numText _⟩,
    ⟨by decide, 9998, rfl, ⟨by decide, decimal_numText _⟩, by decide, decimal_numText _⟩, by decide, decimal_numText _⟩

theorem protocolVal_describes (p : FullProtocol) : DescribesProtocol (protocolVal p) p := by
  refine Or.inr ⟨_, rfl, ?_, ?_, ?_, ?_, [(nMajor, uintVal p.major.toNat), (nMinor, uintVal p.minor.toNat)], ?_, ?_, ?_⟩
  · exact field_once 64 [] _ nTxFeePerByte _ (by decide) (by
      show Others nTxFeePerByte [nTxFeeFixed, nMaxTxSize, nProtocolVersion, nMinUTxOValue]
      unfold Others; decide) p.params.txFeePerByte.toNat_lt
  · exact field_once 64 [_] _ nTxFeeFixed _ (by decide) (by
      show Others nTxFeeFixed [nTxFeePerByte, nMaxTxSize, nProtocolVersion, nMinUTxOValue]
      unfold Others; decide) p.params.txFeeFixed.toNat_lt
  · exact field_once 64 [_, _] _ nMaxTxSize _ (by decide) (by
      show Others nMaxTxSize [nTxFeePerByte, nTxFeeFixed, nProtocolVersion, nMinUTxOValue]
      unfold Others; decide) p.params.maxTxSize.toNat_lt
  · exact field_once 64 [_, _, _, _] _ nMinUTxOValue _ (by decide) (by
      show Others nMinUTxOValue [nTxFeePerByte, nTxFeeFixed, nMaxTxSize, nProtocolVersion]
      unfold Others; decide) p.params.minUTXOValue.toNat_lt
  · exact objFieldIs_once _ _ _ (once_of [_, _, _] nProtocolVersion _ [_] (sameName_refl _) (others_member _ _ _ (by decide) (by
      show Others nProtocolVersion [nTxFeePerByte, nTxFeeFixed, nMaxTxSize, nMinUTxOValue]
      unfold Others; decide)))
  · exact field_once 8 [] _ nMajor _ (by decide) (by
      show Others nMajor [nMinor]
      unfold Others; decide) p.major.toNat_lt
  · exact field_once 8 [_] _ nMinor _ (by decide) (by
      show Others nMinor [nMajor]
      unfold Others; decide) p.minor.toNat_lt

/-- **C121** (protocol parameters). A file that holds protocol parameters written by `json.Marshal` or `json.MarshalIndent` is loaded as these parameters. -/
theorem C121_protocol (p : FullProtocol) (indent : Bytes) (hi : Ws indent) (read : Bytes → Res Bytes) (fp : Bytes)
    (hf : read fp = .ok (marshal (protocolVal p)) ∨ read fp = .ok (marshalIndent indent (protocolVal p))) : loadProtocol read fp = ⟨p, none⟩ := by
  rw [C69_load_iff]
  rcases hf with hf | hf
  · exact ⟨_, _, hf, marshal_text _ (protocolVal_writable p), protocolVal_describes p⟩
  · exact ⟨_, _, hf, marshalIndent_text _ hi _ (protocolVal_writable p), protocolVal_describes p⟩

theorem omitZero_writable (name : Bytes) (hn : Ascii name) (k n : Nat) (r : List (Bytes × JVal)) (h : WritableMembers r k) :
    WritableMembers (omitZero name n ++ r) k := by
  unfold omitZero
  split
  · exact h
  · simp only [List.cons_append, List.nil_append, WritableMembers, WritableMember, uintVal, Writable]
    exact ⟨⟨hn, decimal_numText n⟩, h⟩

theorem tipVal_writable (t : NetworkTip) : Writable (tipVal t) 10000 := by
  refine ⟨9999, rfl, omitZero_writable _ (by decide) _ _ _ (omitZero_writable _ (by decide) _ _ _ ?_)⟩
  rw [← List.append_nil (omitZero nBlock _)]
  exact omitZero_writable _ (by decide) _ _ _ (by rw [WritableMembers]; trivial)

theorem omitZero_names (name : Bytes) (n : Nat) : ∀ x ∈ (omitZero name n).map Prod.fst, x = name := by
  unfold omitZero
  split
  · simp
  · simp

theorem omitZero_field (a b : List (Bytes × JVal)) (k : Bytes) (n : Nat) (hk : Ascii k) (h : Others k (a.map Prod.fst ++ b.map Prod.fst)) (hn : n < 2 ^ 64) :
    FieldIs 64 k (a ++ (omitZero k n ++ b)) n := by
  unfold omitZero
  split
  · rename_i h0
    subst h0
    exact field_absent 64 k _ hk (by simpa using h)
  · exact field_once 64 a b k n hk h hn

theorem tipVal_describes (t : NetworkTip) : DescribesTip (tipVal t) t := by
  have names : ∀ (k x y : Bytes) (m n : Nat), Others k [x, y] → Others k ((omitZero x m).map Prod.fst ++ (omitZero y n).map Prod.fst) := by
    intro k x y m n h z hz
    refine h z ?_
    rcases List.mem_append.1 hz with hz | hz
    · simp [omitZero_names _ _ z hz]
    · simp [omitZero_names _ _ z hz]
  refine Or.inr ⟨_, rfl, ?_, ?_, ?_⟩
  · exact omitZero_field [] _ nSlot _ (by decide) (by
      rw [List.map_append]
      exact names _ _ _ _ _ (by unfold Others; decide)) t.slot.toNat_lt
  · exact omitZero_field _ _ nEpoch _ (by decide) (names _ _ _ _ _ (by unfold Others; decide)) t.epoch.toNat_lt
  · have := omitZero_field (omitZero nSlot t.slot.toNat ++ omitZero nEpoch t.epoch.toNat) [] nBlock t.block.toNat (by decide) (by
      rw [List.map_append, List.map_nil, List.append_nil]
      exact names _ _ _ _ _ (by unfold Others; decide)) t.block.toNat_lt
    rw [List.append_nil, List.append_assoc] at this
    exact this

/-- **C121** (the tip). The text of a tip is read back by `json.Unmarshal`: zeros are left out of it and are the value of what is missing. -/
theorem C121_tip (t : NetworkTip) (indent : Bytes) (hi : Ws indent) (data : Bytes) (hd : data = marshal (tipVal t) ∨ data = marshalIndent indent (tipVal t)) :
    unmarshalTip data ⟨0, 0, 0⟩ = ⟨t, none⟩ := by
  rw [unmarshalTip_iff]
  refine ⟨tipVal t, ?_, tipVal_describes t⟩
  rcases hd with rfl | rfl
  · exact marshal_text _ (tipVal_writable t)
  · exact marshalIndent_text _ hi _ (tipVal_writable t)

theorem inputVal_writable (i : TxInput) : Writable (inputVal i) 9999 := by
  refine ⟨9998, rfl, ?_⟩
  simp only [WritableMembers, WritableMember, uintVal, Writable, and_true]
  exact ⟨by decide, ⟨by decide, fun c hc => (b64_chars _ c hc).2.2⟩, ⟨by decide, decimal_numText _⟩, by decide, decimal_numText _⟩

theorem inputsVal_writable (is : List TxInput) : Writable (inputsVal is) 10000 := by
  unfold inputsVal
  split
  · trivial
  · refine ⟨9999, rfl, ?_⟩
    rename_i h
    clear h
    induction is with
    | nil => rw [List.map_nil, WritableElems]; trivial
    | cons i is ih => rw [List.map_cons, WritableElems]; exact ⟨inputVal_writable i, ih⟩

theorem storeUint_decimal (bits : Nat) (hb : bits ≤ 64) (old n : Nat) (hn : n < 2 ^ bits) : storeUint bits old (uintVal n) = (n, none) :=
  (storeUint_iff bits hb old (uintVal n) n).2 (Or.inr ⟨_, rfl, decimal_uintLit bits n hn⟩)

theorem storeInput_val (i : TxInput) : storeInput ⟨⟨[], 0, 0⟩, none⟩ (inputVal i) = ⟨i, none⟩ := by
  have m1 : keyMatches nMarshaler nMarshaler = true := by decide
  have m2 : keyMatches nMarshaler nTxHash = false ∧ keyMatches nTxHash nTxHash = true := by decide
  have m3 : keyMatches nMarshaler nIndex = false ∧ keyMatches nTxHash nIndex = false ∧ keyMatches nIndex nIndex = true := by decide
  have m4 : keyMatches nMarshaler nAmount = false ∧ keyMatches nTxHash nAmount = false ∧ keyMatches nIndex nAmount = false ∧ keyMatches nAmount nAmount = true := by decide
  simp only [storeInput, inputVal, List.foldl_cons, List.foldl_nil, storeInputMember, m1, m2, m3, m4, if_true, Bool.false_eq_true, if_false, storeBytes, b64_decode_encode,
    saveError]
  rw [storeUint_decimal 16 (by decide) _ _ i.index.toNat_lt, storeUint_decimal 64 (by decide) _ _ i.amount.toNat_lt]
  simp

theorem storeInputs_map (is : List TxInput) : storeInputs none (is.map inputVal) = ⟨is, none⟩ := by
  induction is with
  | nil => rfl
  | cons i is ih =>
    rw [List.map_cons, storeInputs, storeInput_val]
    simp only [ih]

/-- **C121** (unspent outputs). The text of a slice of inputs is read back as the same inputs, hashes of any length, all indices and amounts. -/
theorem C121_inputs (is : List TxInput) (indent : Bytes) (hi : Ws indent) (data : Bytes)
    (hd : data = marshal (inputsVal is) ∨ data = marshalIndent indent (inputsVal is)) : unmarshalInputs data = ⟨is, none⟩ := by
  have h : JsonText data (inputsVal is) := by
    rcases hd with rfl | rfl
    · exact marshal_text _ (inputsVal_writable is)
    · exact marshalIndent_text _ hi _ (inputsVal_writable is)
  unfold unmarshalInputs
  rw [(parse_iff data (inputsVal is)).2 h]
  by_cases h0 : is = []
  · subst h0; rfl
  · unfold inputsVal
    rw [if_neg h0]
    exact storeInputs_map is

/-- **C121** (outputs: what fails). The text of an output is refused when it is read back: whatever its address is written as, unless null, there is an error. -/
theorem C121_outputs_refused (address : JVal) (amount : UInt64) (ha : address ≠ .null) (data : Bytes) (hd : JsonText data (outputVal address amount)) :
    unmarshalOutput data = ⟨amount, some typeError⟩ := by
  have m1 : keyMatches nAddress nAddress = true := by decide
  have m2 : keyMatches nAddress nAmount = false ∧ keyMatches nAmount nAmount = true := by decide
  unfold unmarshalOutput
  rw [(parse_iff data _).2 hd]
  simp only [outputVal, List.foldl_cons, List.foldl_nil, storeOutputMember, m1, m2, if_true, Bool.false_eq_true, if_false, saveError]
  rw [storeUint_decimal 64 (by decide) _ _ amount.toNat_lt]
  cases address <;> simp at ha ⊢

/-- Parameters, the tip of a new chain, two unspent outputs; the second text is that of `MarshalIndent` with a tab. -/
example : marshal (protocolVal ⟨⟨44, 155381, 16384, 1000000⟩, 6, 0⟩) =
      asc "{\"txFeePerByte\":44,\"txFeeFixed\":155381,\"maxTxSize\":16384,\"protocolVersion\":{\"major\":6,\"minor\":0},\"minUTxOValue\":1000000}".toList ∧
    marshalIndent [9] (tipVal ⟨7, 0, 31⟩) = asc "{\n\t\"slot\": 7,\n\t\"block\": 31\n}".toList ∧
    marshal (inputsVal [⟨[1, 2, 3, 255], 2, 5000000⟩, ⟨[], 0, 18446744073709551615⟩]) =
      asc "[{\"Marshaler\":null,\"TxHash\":\"AQID/w==\",\"Index\":2,\"Amount\":5000000},{\"Marshaler\":null,\"TxHash\":\"\",\"Index\":0,\"Amount\":18446744073709551615}]".toList ∧
    marshal (inputsVal []) = asc ['n','u','l','l'] ∧ unmarshalOutput (marshal (outputVal (.obj []) 5)) = ⟨5, some typeError⟩ := by decide +kernel

/-! ### C122 -/

/-- The members of an object for an unspent output: its position and amount as numbers, the hash as base64. -/
def StatesInput (v : JVal) (i : TxInput) : Prop :=
  ∃ t x y, v = .obj [(asc ['M','a','r','s','h','a','l','e','r'], .null), (asc ['T','x','H','a','s','h'], .str t), (asc ['I','n','d','e','x'], .num x),
      (asc ['A','m','o','u','n','t'], .num y)] ∧
    IsBase64 t i.txHash ∧ UintLit 16 x i.index.toNat ∧ UintLit 64 y i.amount.toNat

/-- The value lists these unspent outputs, in order; none are null. -/
def StatesInputs (v : JVal) (is : List TxInput) : Prop :=
  (is = [] ∧ v = .null) ∨ (is ≠ [] ∧ ∃ vs, v = .arr vs ∧ Cbor.All2 StatesInput vs is)

theorem inputVal_states (i : TxInput) : StatesInput (inputVal i) i :=
  ⟨_, _, _, rfl, b64Encode_spec _, decimal_uintLit _ _ i.index.toNat_lt, decimal_uintLit _ _ i.amount.toNat_lt⟩

theorem inputsVal_states (is : List TxInput) : StatesInputs (inputsVal is) is := by
  unfold inputsVal
  split
  · rename_i h; exact Or.inl ⟨h, rfl⟩
  · rename_i h
    refine Or.inr ⟨h, _, rfl, ?_⟩
    clear h
    induction is with
    | nil => exact .nil
    | cons i is ih => exact .cons (inputVal_states i) ih

theorem testAddress_string (a text : Bytes) (h : TestAddress a text) :
    ∃ addr, (∀ strict spare, Addr.NewAddress strict text spare = .ok addr) ∧ Addr.string addr = .ok text := by
  obtain ⟨hb, ⟨sp, ss, p, s, hp, hs, rfl⟩ | ⟨sp, p, hp, rfl⟩⟩ := h
  · obtain ⟨-, h2, -⟩ := base_facts sp ss p s hp hs text hb
    exact ⟨_, h2.2, h2.1⟩
  · have hby := (C65_constructed_bytes false sp false p p hp hp 0 0 0).2.1
    have hok : ShelleyOk (NewEnterpriseAddress (cip19Net false) (credFor sp p)) := ⟨.inr rfl, credFor_ok sp p hp⟩
    obtain ⟨h1, h2⟩ := text_of _ hok nofun ((C65_constructed_text false sp false p p).1 _ (.inr rfl)) text (by rw [hby]; exact hb)
    exact ⟨_, h2, h1⟩

/-- **C122** (what holds). If what the service reports is true, the program prints three JSON texts and ends without an error: the protocol parameters, the tip, and the unspent
outputs of the address, all of them and in the order of the service. -/
theorem C122_prints_partial (w : World) (e : Env) (u : UTxO) (addr text : Bytes) (ins : List TxInput) (tip : Nat) (hs : Truthful w e u addr text ins tip) (hus : Usual e)
    (ha : TestAddress addr text) (strict : Bool) (spare : Bytes) :
    ∃ a b c va vb vc, nodeMain w strict text spare =
        (asc "\nProtocol Parameters: ".toList ++ a ++ asc "\n\nTip: ".toList ++ b ++ asc "\n\nUTXOS: ".toList ++ c ++ asc "\n\n".toList, .ok ()) ∧
      (JsonText a va ∧ ∃ q : FullProtocol, DescribesProtocol va q ∧ envOf q.params 0 e.slot = e) ∧
      (JsonText b vb ∧ ∃ t, DescribesTip vb t ∧ t.slot.toNat = tip % 2 ^ 64) ∧
      (JsonText c vc ∧ StatesInputs vc ins) := by
  obtain ⟨p, p1, p2, p3, p4, p5, p6, p7⟩ := hs.params
  obtain ⟨us, u1, u2⟩ := hs.utxos
  obtain ⟨blk, b1, b2⟩ := hs.slot
  obtain ⟨q, q1, q2⟩ := params_of p e p2 p3 p4 p5 p6 p7 hus
  obtain ⟨x, x1, x2⟩ := testAddress_string addr text ha
  have hin := C46_utxos_partial w.utxos TestNet text us ins u1 u2
  have tab : Ws [9] := by simp [Ws]
  refine ⟨prettyPrint (protocolVal q), prettyPrint (tipVal (convertTip blk)), prettyPrint (inputsVal ins), protocolVal q, tipVal (convertTip blk), inputsVal ins, ?_,
    ⟨marshalIndent_text _ tab _ (protocolVal_writable q), q, protocolVal_describes q, q2⟩,
    ⟨marshalIndent_text _ tab _ (tipVal_writable _), convertTip blk, tipVal_describes _, ?_⟩,
    marshalIndent_text _ tab _ (inputsVal_writable ins), inputsVal_states ins⟩
  · unfold nodeMain
    rw [show clientServer TestNet = .testNet from rfl, p1, b1, x1 strict spare]
    simp only [Res.ok_bind, q1, x2, hin]
    simp only [printed, asc, List.map, List.append_assoc]
    rfl
  · have := toNat_toUint blk.slot
    have e1 : (convertTip blk).slot = toUint blk.slot := rfl
    rw [e1]
    omega

/-- **C122** (what fails). The ids of the transactions are not among what is printed for an unspent output: the member `TxHash` is base64, of 44 characters, and not the
hexadecimal id of 64 characters that the service reports and that other tools ask for. -/
theorem C122_ids_not_printed (v : JVal) (i : TxInput) (h : StatesInput v i) (hl : i.txHash.length = 32) :
    ∃ ms t, v = .obj ms ∧ (asc ['T','x','H','a','s','h'], JVal.str t) ∈ ms ∧ IsBase64 t i.txHash ∧ t.length = 44 ∧
      ∀ id, IsHexOf id i.txHash → id.length = 64 ∧ ∀ m ∈ ms, m.2 ≠ .str id := by
  obtain ⟨t, x, y, rfl, h1, h2, h3⟩ := h
  have len : ∀ t s, IsBase64 t s → t.length = (s.length + 2) / 3 * 4 := by
    intro t s h
    induction h with
    | nil => rfl
    | one => simp
    | two => simp
    | three _ _ _ _ _ _ _ _ _ _ _ _ _ _ _ _ _ _ _ ih => simp only [List.length_cons, ih]; omega
  have ht : t.length = 44 := by rw [len t _ h1, hl]
  refine ⟨_, t, rfl, by simp, h1, ht, fun id hid => ?_⟩
  have hlen : ∀ s b, IsHexOf s b → s.length = 2 * b.length := by
    intro s b h
    induction h with
    | nil => rfl
    | cons _ _ _ _ ih => simp only [List.length_cons, ih]; omega
  have hid' := hlen _ _ hid
  refine ⟨by omega, fun m hm => ?_⟩
  simp only [List.mem_cons, List.not_mem_nil, or_false] at hm
  rcases hm with rfl | rfl | rfl | rfl <;> simp
  rintro rfl
  omega

/-- **C122** (failures). The program ends without an error exactly if every question was answered and the answer understood. -/
theorem C122_failures (w : World) (strict : Bool) (raw spare : Bytes) :
    (nodeMain w strict raw spare).2 = .ok () ↔
      (∃ p q, w.params .testNet = .ok p ∧ convertParams p = .ok q) ∧ (∃ b, w.tip .testNet = .ok b) ∧
        ∃ a text us is, Addr.NewAddress strict raw spare = .ok a ∧ Addr.string a = .ok text ∧ w.utxos .testNet text = .ok us ∧ convertUTXOs us = .ok is := by
  unfold nodeMain bfUTXOs
  rw [show clientServer TestNet = .testNet from rfl]
  constructor
  · intro h
    cases h1 : w.params .testNet with
    | err e => rw [h1] at h; cases h
    | panic => rw [h1] at h; cases h
    | ok p =>
      rw [h1] at h
      simp only [Res.ok_bind] at h
      cases h2 : convertParams p with
      | err e => rw [h2] at h; cases h
      | panic => rw [h2] at h; cases h
      | ok q =>
        rw [h2] at h
        simp only at h
        cases h3 : w.tip .testNet with
        | err e => rw [h3] at h; cases h
        | panic => rw [h3] at h; cases h
        | ok b =>
          rw [h3] at h
          simp only at h
          refine ⟨⟨p, q, rfl, h2⟩, ⟨b, rfl⟩, ?_⟩
          cases h4 : Addr.NewAddress strict raw spare with
          | err e => rw [h4] at h; cases h
          | panic => rw [h4] at h; cases h
          | ok a =>
            rw [h4] at h
            simp only [Res.ok_bind] at h
            cases h5 : Addr.string a with
            | err e => rw [h5] at h; cases h
            | panic => rw [h5] at h; cases h
            | ok text =>
              rw [h5] at h
              simp only [Res.ok_bind] at h
              cases h6 : w.utxos .testNet text with
              | err e => rw [h6] at h; cases h
              | panic => rw [h6] at h; cases h
              | ok us =>
                rw [h6] at h
                simp only [Res.ok_bind] at h
                cases h7 : convertUTXOs us with
                | err e => rw [h7] at h; cases h
                | panic => rw [h7] at h; cases h
                | ok is => exact ⟨a, text, us, is, rfl, h5, h6, h7⟩
  · rintro ⟨⟨p, q, h1, h2⟩, ⟨b, h3⟩, a, text, us, is, h4, h5, h6, h7⟩
    rw [h1, h3, h4]
    simp only [Res.ok_bind, h2, h5, h6, h7]

/-- **C122** (nothing after a failure). Without the parameters the program prints nothing; without the tip it prints the parameters only. -/
theorem C122_stops (w : World) (strict : Bool) (raw spare : Bytes) :
    ((∀ p q, w.params .testNet = .ok p → convertParams p ≠ .ok q) → (nodeMain w strict raw spare).1 = []) ∧
    (∀ p q, w.params .testNet = .ok p → convertParams p = .ok q → (∀ b, w.tip .testNet ≠ .ok b) →
      ∃ a va, (nodeMain w strict raw spare).1 = asc "\nProtocol Parameters: ".toList ++ a ++ asc "\n\n".toList ∧ JsonText a va ∧ DescribesProtocol va q) := by
  constructor
  · intro h
    unfold nodeMain
    rw [show clientServer TestNet = .testNet from rfl]
    cases h1 : w.params .testNet with
    | err e => rfl
    | panic => rfl
    | ok p =>
      simp only [Res.ok_bind]
      cases h2 : convertParams p with
      | err e => rfl
      | panic => rfl
      | ok q => exact absurd h2 (h p q h1)
  · intro p q h1 h2 h3
    refine ⟨prettyPrint (protocolVal q), protocolVal q, ?_, marshalIndent_text _ (by simp [Ws]) _ (protocolVal_writable q), protocolVal_describes q⟩
    unfold nodeMain
    rw [show clientServer TestNet = .testNet from rfl, h1]
    simp only [Res.ok_bind, h2]
    cases h4 : w.tip .testNet with
    | err e => simp only [printed, asc, List.map, List.append_assoc]; rfl
    | panic => simp only [printed, asc, List.map, List.append_assoc]; rfl
    | ok b => exact absurd h4 (h3 b)

/-- The program on the service of the examples, for the text in its source: what it prints. -/
example : nodeMain (exampleWorld none [exampleUtxo 1 (asc "10000000".toList)]) true
      (asc "addr_test1qqe6zztejhz5hq0xghlf72resflc4t2gmu9xjlf73x8dpf88d78zlt4rng3ccw8g5vvnkyrvt96mug06l5eskxh8rcjq2wyd63".toList) [] =
    (asc ("\nProtocol Parameters: {\n\t\"txFeePerByte\": 44,\n\t\"txFeeFixed\": 155381,\n\t\"maxTxSize\": 16384,\n\t\"protocolVersion\": {\n\t\t\"major\": 8,\n\t\t\"minor\": 0\n\t},\n\t\"minUTxOValue\": 1000000\n}\n\n" ++
      "Tip: {\n\t\"slot\": 86400000,\n\t\"epoch\": 200,\n\t\"block\": 3500000\n}\n\n" ++
      "UTXOS: [\n\t{\n\t\t\"Marshaler\": null,\n\t\t\"TxHash\": \"AAAAAAAAAAAAAAAAAAAAAAAAAAAAAAAAAAAAAAAAAAA=\",\n\t\t\"Index\": 1,\n\t\t\"Amount\": 10000000\n\t}\n]\n\n").toList, .ok ()) := by
  decide +kernel

end Cardano.Props
