import Verif.Props.Crc
/-!
# Property C89: the Byron addresses of the chain

The specification is the one of CIP-19 and of the Byron CDDL: `[#6.24(bytes .cbor [root, attributes, type]), crc32]`, where every attribute is a
byte string that holds CBOR: 1 is the derivation path, 2 the protocol magic of the network (absent on the main network); type 0 is a public key
address, 1 a script address, 2 a redemption address.
-/
set_option autoImplicit false

namespace Cardano.Props
open Cardano.Spec Cardano.Addr Cbor

/-- The entry of an attribute map for a value that may be absent. -/
def attrEntry (key : Nat) : Option Bytes → List Item
  | none => []
  | some v => [.uint key, .bytes v]

/-- `v` is absent like `x`, or CBOR of the item for the value of `x`. -/
def Holds {α : Type} (item : α → Item) : Option Bytes → Option α → Prop
  | none, none => True
  | some v, some a => parse v = some (item a)
  | _, _ => False

/-- The payload of an address is `[root, {1: path, 2: magic}, type]`. -/
structure IsRoot (payload root : Bytes) (path : Option Bytes) (magic : Option Nat) (type : Nat) : Prop where
  size : root.length = 28
  small : type < 2 ^ 64
  content : ∃ v w, parse payload = some (.array [.bytes root, .map (attrEntry 1 v ++ attrEntry 2 w), .uint type]) ∧
    Holds Item.bytes v path ∧ Holds Item.uint w magic

/-- These bytes are a Byron address with this root hash, encrypted derivation path, protocol magic and type. -/
def IsByron (data root : Bytes) (path : Option Bytes) (magic : Option Nat) (type : Nat) : Prop :=
  ∃ t payload crc, data = 0x82 :: t ∧ parse data = some (.array [.tag 24 (.bytes payload), .uint crc]) ∧ IsCrc32 payload crc ∧
    IsRoot payload root path magic type

theorem parse_some {b : Bytes} {x : Item} (h : parse b = some x) : parseFirst b = some (x, []) := by
  unfold parse at h
  split at h
  · rename_i y hy; injection h with h; rw [hy, h]
  · cases h

theorem Cbor.Enc.parse {b : Bytes} {x : Item} (h : Enc b x) : Cbor.parse b = some x := by
  have := h.parseFirst []
  rw [List.append_nil] at this
  unfold Cbor.parse
  rw [this]

/-- What the parser makes of such bytes. -/
theorem read_byron (strict : Bool) (data spare payload : Bytes) (crc : Nat) (t : Bytes) (e : data = 0x82 :: t)
    (h : parse data = some (.array [.tag 24 (.bytes payload), .uint crc])) (hc : IsCrc32 payload crc) :
    NewAddressFromBytes strict data spare =
      (Byron.decodeRaw strict payload >>= fun b => if b.hash.length ≠ 28 ∨ b.tag ≠ 0 then .err "" else .ok (.byron b)) := by
  have hp := parse_some h
  have hcc := (checksum_iff payload crc).2 hc
  have hle : crc ≤ 4294967295 := by have := UInt32.toNat_lt (Crc32.checksum payload); omega
  rw [e, parse_byron _ _ _ _ (by decide), ← e]
  unfold Byron.unmarshal
  rw [hp]
  simp only [ne_eq, not_true, and_false, if_false, Byron.ofItem, Byron.stripTags, Byron.toUint, show (2 ^ 32 - 1 : Nat) = 4294967295 from rfl, if_pos hle,
    Res.ok_bind, Option.getD_some, hcc]
  cases Byron.decodeRaw strict payload with
  | ok b =>
    simp only [Res.ok_bind]
    split <;> rfl
  | err m => rfl
  | panic => rfl

/-- What is written for a Byron address is a Byron address when it has no network attribute, and its payload is empty or CBOR of a byte string. -/
theorem byron_written (b : ByronAddress) (path : Option Bytes) (hb : ByronOk b) (hn : b.attributes.network = none)
    (hp : Holds Item.bytes (if b.attributes.payload = [] then none else some b.attributes.payload) path) :
    IsByron (bytes (.byron b)) b.hash path none 0 := by
  obtain ⟨t, e⟩ := Byron.bytes_cons b
  have hc := UInt32.toNat_lt (Crc32.checksum (Byron.rawBytes b))
  have e1 := (Byron.bytes_enc (Byron.rawBytes b) (Byron.raw_length b hb) (UInt64.ofNat (Crc32.checksum (Byron.rawBytes b)).toNat)).parse
  have e2 := (Byron.raw_enc b hb).parse
  refine ⟨t, Byron.rawBytes b, _, e, e1, (checksum_iff _ _).1 ?_, hb.1, by decide, _, none, ?_, hp, trivial⟩
  · rw [UInt64.toNat_ofNat', Nat.mod_eq_of_lt (by omega)]
  · rw [e2, hb.2.1]
    unfold Byron.attrPairs
    rw [hn]
    by_cases c : b.attributes.payload = []
    · simp [c, attrEntry, flatPairs]
    · simp [c, attrEntry, flatPairs]

/-- **C89 (partial).** Every public key address of the main network is parsed, with its root hash and its derivation path, reported to be of the main
network, and written again as the same address. Missing: see the next theorems. -/
theorem C89_mainnet_partial (strict : Bool) (data spare root : Bytes) (path : Option Bytes) (h : IsByron data root path none 0) :
    ∃ b, NewAddressFromBytes strict data spare = .ok (.byron b) ∧ b.hash = root ∧ networkInfo (.byron b) = MainNet ∧
      (path = none → b.attributes.payload = []) ∧ (∀ p, path = some p → parse b.attributes.payload = some (.bytes p)) ∧
      (b.attributes.payload.length < 2 ^ 63 → IsByron (bytes (.byron b)) root path none 0) := by
  obtain ⟨t, payload, crc, e, h1, h2, h3⟩ := h
  obtain ⟨v, w, h4, h5, h6⟩ := h3.content
  have hw : w = none := by
    cases w with
    | none => rfl
    | some _ => exact absurd h6 id
  subst hw
  have hd : Byron.decodeRaw strict payload = .ok ⟨root, ⟨v.getD [], none⟩, 0⟩ := by
    unfold Byron.decodeRaw
    rw [parse_some h4]
    cases v <;>
      simp [Byron.stripTags, Byron.toBytes, Byron.toAttrs, attrEntry, Byron.toAttrsPairs, Byron.toUint]
  refine ⟨⟨root, ⟨v.getD [], none⟩, 0⟩, ?_, rfl, rfl, ?_, ?_, fun hl => byron_written _ _ ⟨h3.size, rfl, hl⟩ rfl ?_⟩
  · rw [read_byron strict data spare payload crc t e h1 h2, hd]
    simp [h3.size]
  · rintro rfl
    cases v with
    | none => rfl
    | some _ => exact absurd h5 id
  · rintro p rfl
    cases v with
    | none => exact absurd h5 id
    | some _ => exact h5
  · cases v with
    | none => exact h5
    | some v =>
      cases path with
      | none => exact absurd h5 id
      | some p =>
        have : v ≠ [] := by rintro rfl; cases h5
        show Holds Item.bytes (if v = [] then none else some v) (some p)
        rw [if_neg this]; exact h5

/-- **C89 is false for all other networks**: an address with the protocol magic as CIP-19 prescribes is rejected, on account of the type of the attribute. -/
theorem C89_testnet_rejected (strict : Bool) (data spare root : Bytes) (path : Option Bytes) (magic type : Nat)
    (h : IsByron data root path (some magic) type) : ∃ m, NewAddressFromBytes strict data spare = .err m := by
  obtain ⟨t, payload, crc, e, h1, h2, h3⟩ := h
  obtain ⟨v, w, h4, h5, h6⟩ := h3.content
  rw [read_byron strict data spare payload crc t e h1 h2]
  cases w with
  | none => exact absurd h6 id
  | some w =>
    unfold Byron.decodeRaw
    rw [parse_some h4]
    cases v <;> exact ⟨_, by simp [Byron.stripTags, Byron.toBytes, Byron.toAttrs, attrEntry, Byron.toAttrsPairs, Byron.toUint]; rfl⟩

/-- **C89 is false for script and redemption addresses**: they are rejected, on all networks. -/
theorem C89_other_types_rejected (strict : Bool) (data spare root : Bytes) (path : Option Bytes) (magic : Option Nat) (type : Nat) (ht : type ≠ 0)
    (h : IsByron data root path magic type) : ∃ m, NewAddressFromBytes strict data spare = .err m := by
  cases magic with
  | some magic => exact C89_testnet_rejected strict data spare root path magic type h
  | none =>
    obtain ⟨t, payload, crc, e, h1, h2, h3⟩ := h
    obtain ⟨v, w, h4, h5, h6⟩ := h3.content
    have hw : w = none := by
      cases w with
      | none => rfl
      | some _ => exact absurd h6 id
    subst hw
    have h64 := h3.small
    have hne : UInt64.ofNat type ≠ 0 := by
      intro h
      have := congrArg UInt64.toNat h
      rw [UInt64.toNat_ofNat', Nat.mod_eq_of_lt h64] at this
      exact ht this
    have hd : Byron.decodeRaw strict payload = .ok ⟨root, ⟨v.getD [], none⟩, UInt64.ofNat type⟩ := by
      have : type ≤ 18446744073709551615 := by omega
      unfold Byron.decodeRaw
      rw [parse_some h4]
      cases v <;>
        simp [Byron.stripTags, Byron.toBytes, Byron.toAttrs, attrEntry, Byron.toAttrsPairs, Byron.toUint, this]
    rw [read_byron strict data spare payload crc t e h1 h2, hd]
    exact ⟨_, by simp only [Res.ok_bind]; rw [if_pos (.inr hne)]⟩

/-- **The converse**: what is written for an address with a network attribute is no Byron address at all, whatever the attribute. -/
theorem C89_written_network_invalid (b : ByronAddress) (hb : ByronOk b) (n : UInt8) (hn : b.attributes.network = some n)
    (root : Bytes) (path : Option Bytes) (magic : Option Nat) (type : Nat) : ¬ IsByron (bytes (.byron b)) root path magic type := by
  rintro ⟨t, payload, crc, -, h1, -, h3⟩
  obtain ⟨v, w, h4, -, -⟩ := h3.content
  have e1 := (Byron.bytes_enc (Byron.rawBytes b) (Byron.raw_length b hb) (UInt64.ofNat (Crc32.checksum (Byron.rawBytes b)).toNat)).parse
  have e2 := (Byron.raw_enc b hb).parse
  have e1 : parse (bytes (.byron b)) = _ := e1
  rw [h1] at e1
  injection e1 with e1
  injection e1 with e1
  injection e1 with e1 _
  injection e1 with _ e1
  injection e1 with e1
  rw [← e1, h4] at e2
  injection e2 with e2
  injection e2 with e2
  injection e2 with _ e2
  injection e2 with e2 _
  injection e2 with e2
  unfold Byron.attrPairs at e2
  rw [hn] at e2
  cases v <;> cases w <;> by_cases c : b.attributes.payload.length = 0 <;> simp [c, attrEntry, flatPairs] at e2

/-- **C48, bytes behind the content of the payload**: ignored by the lenient CBOR library, an error for the strict one; the bytes are covered by the checksum. -/
theorem C48_inner_trailing (b : ByronAddress) (hb : ByronOk b) (junk spare : Bytes) (hj : junk ≠ []) (hl : (Byron.rawBytes b ++ junk).length < 2 ^ 64) :
    let data := encArray [encTag 24 (encBytes (Byron.rawBytes b ++ junk)), encUint (UInt64.ofNat (Crc32.checksum (Byron.rawBytes b ++ junk)).toNat)]
    NewAddressFromBytes false data spare = .ok (.byron b) ∧ ∃ m, NewAddressFromBytes true data spare = .err m := by
  intro data
  have hc := UInt32.toNat_lt (Crc32.checksum (Byron.rawBytes b ++ junk))
  have e1 := (Byron.bytes_enc (Byron.rawBytes b ++ junk) hl (UInt64.ofNat (Crc32.checksum (Byron.rawBytes b ++ junk)).toNat)).parse
  have e0 : ∃ t, data = 0x82 :: t := by
    have a1 : encHead 0x80 (UInt64.ofNat 2) = [0x82] := by decide
    refine ⟨encHead 0xc0 24 ++ encBytes (Byron.rawBytes b ++ junk) ++ encUint (UInt64.ofNat (Crc32.checksum (Byron.rawBytes b ++ junk)).toNat), ?_⟩
    show encHead 0x80 (UInt64.ofNat 2) ++ _ = _
    rw [a1]; simp [encTag]
  obtain ⟨t, e0⟩ := e0
  rw [UInt64.toNat_ofNat', Nat.mod_eq_of_lt (show _ < 2 ^ 64 by omega)] at e1
  have key := fun strict => read_byron strict data spare _ _ t e0 e1 ((checksum_iff _ _).1 rfl)
  have hp := (Byron.raw_enc b hb).parseFirst junk
  have ht : b.tag.toNat ≤ 18446744073709551615 := by have := UInt64.toNat_lt b.tag; omega
  constructor
  · rw [key]
    have : Byron.decodeRaw false (Byron.rawBytes b ++ junk) = .ok b := by
      unfold Byron.decodeRaw
      rw [hp]
      simp [Byron.stripTags, Byron.toBytes, Byron.toAttrs, Byron.attr_dec, Byron.toUint, ht]
    rw [this]
    simp [hb.1, hb.2.1]
  · rw [key]
    have : Byron.decodeRaw true (Byron.rawBytes b ++ junk) = .err "cbor: extraneous data" := by
      unfold Byron.decodeRaw
      rw [hp]
      simp [hj]
    rw [this]
    exact ⟨_, rfl⟩

/-! ### Concrete cases -/

/-- An address of the main network with a derivation path. -/
def byronMain : Bytes := [130, 216, 24, 88, 40, 131, 88, 28, 90, 90, 90, 90, 90, 90, 90, 90, 90, 90, 90, 90, 90, 90, 90, 90, 90, 90, 90, 90, 90, 90, 90, 90, 90, 90, 90, 90, 161, 1, 69, 68, 7, 7, 7, 7, 0, 26, 220, 190, 4, 93]

theorem byronMain_ok : IsByron byronMain (List.replicate 28 0x5a) (some (List.replicate 4 7)) none 0 :=
  ⟨_, [131, 88, 28, 90, 90, 90, 90, 90, 90, 90, 90, 90, 90, 90, 90, 90, 90, 90, 90, 90, 90, 90, 90, 90, 90, 90, 90, 90, 90, 90, 90, 161, 1, 69, 68, 7, 7, 7, 7, 0], 3703440477, rfl, by rfl, (checksum_iff _ _).1 (by decide +kernel), rfl, by decide, some [68, 7, 7, 7, 7], none, by rfl, by rfl, trivial⟩

/-- An address of the test network. -/
def byronTest : Bytes := [130, 216, 24, 88, 40, 131, 88, 28, 90, 90, 90, 90, 90, 90, 90, 90, 90, 90, 90, 90, 90, 90, 90, 90, 90, 90, 90, 90, 90, 90, 90, 90, 90, 90, 90, 90, 161, 2, 69, 26, 65, 112, 203, 23, 0, 26, 151, 153, 34, 128]

theorem byronTest_ok : IsByron byronTest (List.replicate 28 0x5a) none (some 1097911063) 0 :=
  ⟨_, [131, 88, 28, 90, 90, 90, 90, 90, 90, 90, 90, 90, 90, 90, 90, 90, 90, 90, 90, 90, 90, 90, 90, 90, 90, 90, 90, 90, 90, 90, 90, 161, 2, 69, 26, 65, 112, 203, 23, 0], 2543395456, rfl, by rfl, (checksum_iff _ _).1 (by decide +kernel), rfl, by decide, none, some [26, 65, 112, 203, 23], by rfl, trivial, by rfl⟩

/-- A redemption address. -/
def byronRedeem : Bytes := [130, 216, 24, 88, 33, 131, 88, 28, 90, 90, 90, 90, 90, 90, 90, 90, 90, 90, 90, 90, 90, 90, 90, 90, 90, 90, 90, 90, 90, 90, 90, 90, 90, 90, 90, 90, 160, 2, 26, 75, 219, 154, 3]

theorem byronRedeem_ok : IsByron byronRedeem (List.replicate 28 0x5a) none none 2 :=
  ⟨_, [131, 88, 28, 90, 90, 90, 90, 90, 90, 90, 90, 90, 90, 90, 90, 90, 90, 90, 90, 90, 90, 90, 90, 90, 90, 90, 90, 90, 90, 90, 90, 160, 2], 1272683011, rfl, by rfl, (checksum_iff _ _).1 (by decide +kernel), rfl, by decide, none, none, by rfl, trivial, trivial⟩

/-- The first is parsed, the others are not. -/
example : (∃ b, NewAddressFromBytes true byronMain [] = .ok (.byron b)) ∧ (∃ m, NewAddressFromBytes true byronTest [] = .err m) ∧
    ∃ m, NewAddressFromBytes true byronRedeem [] = .err m :=
  ⟨(C89_mainnet_partial true _ [] _ _ byronMain_ok).imp fun _ h => h.1, C89_testnet_rejected true _ [] _ _ _ _ byronTest_ok,
    C89_other_types_rejected true _ [] _ _ _ _ (by decide) byronRedeem_ok⟩

/-- An address with a network attribute. -/
example : ByronOk ⟨List.replicate 28 1, ⟨[], some 5⟩, 0⟩ := ⟨rfl, rfl, by decide⟩

end Cardano.Props
