import Verif.Props.Byron
/-!
# Property C153: Byron addresses put together by hand

The package has no constructor for Byron addresses, but the fields of `ByronAddress` are exported: a caller may write one
with a root hash of any length, or none at all, and any type number. Such values are outside `C04`.
-/
set_option autoImplicit false

namespace Cardano
open Cbor

/-- byron.go:22-26 `ByronAddress` as a caller may write it: a nil `Hash` (`none`) is distinguished from an empty one. A nil
and an empty payload are not distinguished (byron.go:18, `omitempty`). -/
structure HandByron where
  hash : Option Bytes
  attributes : ByronAttributes
  tag : UInt64
  deriving DecidableEq, Repr

namespace Byron

/-- byron.go:49 `cbor.Marshal([]interface{}{b.Hash, b.Attributes, b.Tag})`: a nil `Hash` is written as null. -/
def handRaw (b : HandByron) : Bytes :=
  encArray [match b.hash with
    | none => encNil
    | some h => encBytes h, attrBytes b.attributes, encUint b.tag]

/-- byron.go:29-32 `Bytes` and byron.go:48-57 `MarshalCBOR`. -/
def handBytes (b : HandByron) : Bytes :=
  let raw := handRaw b
  encArray [encTag 24 (encBytes raw), encUint (UInt64.ofNat (Crc32.checksum raw).toNat)]

/-- byron.go:35-37 `String`. -/
def handString (b : HandByron) : Bytes := Base58.encode (handBytes b)

/-- The item written for the hash. -/
def hashItem : Option Bytes → Item
  | none => .simple 22
  | some h => .bytes h

/-- The items inside the payload. -/
def handItem (b : HandByron) : Item := .array [hashItem b.hash, .map (flatPairs (attrPairs b.attributes)), .uint b.tag.toNat]

end Byron

namespace Props
open Cardano.Spec Cardano.Addr Byron

/-- The byte strings of the address fit into memory (Go: a slice has fewer than 2^63 bytes). -/
def InMemory (b : HandByron) : Prop := (b.hash.getD []).length + b.attributes.payload.length < 2 ^ 63

theorem hand_enc (b : HandByron) (h : InMemory b) : Enc (handRaw b) (handItem b) := by
  unfold InMemory at h
  refine enc_array _ _ (.cons ?_ (.cons (attr_enc _ (by omega)) (.cons (enc_uint _) .nil))) (by simp)
  cases hh : b.hash with
  | none => exact enc_nil
  | some x => exact enc_bytes x (by rw [hh] at h; simp only [Option.getD_some] at h; omega)

theorem hand_length (b : HandByron) (h : InMemory b) : (handRaw b).length < 2 ^ 64 := by
  unfold InMemory at h
  have e1 := encHead_length_le 0x80 (UInt64.ofNat (0 + 1 + 1 + 1))
  have e3 : (encUint b.tag).length ≤ 9 := encHead_length_le _ _
  have e4 := attrBytes_length b.attributes
  have e5 : (match b.hash with
    | none => encNil
    | some h => encBytes h).length ≤ (b.hash.getD []).length + 9 := by
    cases hh : b.hash with
    | none => simp [encNil]
    | some x =>
      have e2 := encHead_length_le 0x40 (UInt64.ofNat x.length)
      simp only [encBytes, List.length_append, Option.getD_some]; omega
  unfold handRaw encArray
  simp only [List.flatten_cons, List.flatten_nil, List.append_nil, List.length_append, List.length_cons, List.length_nil] at *
  omega

theorem hand_decode (strict : Bool) (b : HandByron) (h : InMemory b) :
    decodeRaw strict (handRaw b) = .ok ⟨b.hash.getD [], b.attributes, b.tag⟩ := by
  have e := (hand_enc b h).parseFirst []
  rw [List.append_nil] at e
  unfold decodeRaw
  rw [e]
  have ht : b.tag.toNat ≤ 18446744073709551615 := by have := UInt64.toNat_lt b.tag; omega
  cases hh : b.hash <;> simp [handItem, hashItem, hh, stripTags, toBytes, toAttrs, attr_dec, toUint, ht]

theorem hand_bytes_enc (b : HandByron) (h : InMemory b) :
    Enc (handBytes b) (.array [.tag 24 (.bytes (handRaw b)), .uint (Crc32.checksum (handRaw b)).toNat]) := by
  have hc : (UInt64.ofNat (Crc32.checksum (handRaw b)).toNat).toNat = (Crc32.checksum (handRaw b)).toNat :=
    ofNat64 _ (by have := UInt32.toNat_lt (Crc32.checksum (handRaw b)); omega)
  have e := bytes_enc (handRaw b) (hand_length b h) (UInt64.ofNat (Crc32.checksum (handRaw b)).toNat)
  rw [hc] at e
  exact e

theorem hand_unmarshal (strict : Bool) (b : HandByron) (h : InMemory b) :
    unmarshal strict (handBytes b) = if (b.hash.getD []).length ≠ 28 ∨ b.tag ≠ 0 then .err "" else .ok ⟨b.hash.getD [], b.attributes, b.tag⟩ := by
  have e := (hand_bytes_enc b h).parseFirst []
  rw [List.append_nil] at e
  have hle : (Crc32.checksum (handRaw b)).toNat ≤ 4294967295 := by
    have := UInt32.toNat_lt (Crc32.checksum (handRaw b)); omega
  unfold unmarshal
  rw [e]
  simp [ofItem, stripTags, toUint, hle, hand_decode strict b h]

theorem hand_cons (b : HandByron) : ∃ t, handBytes b = 0x82 :: t := by
  have a1 : encHead 0x80 (UInt64.ofNat 2) = [0x82] := by decide
  have : handBytes b = encHead 0x80 (UInt64.ofNat 2) ++ (encHead 0xc0 24 ++ encBytes (handRaw b) ++
      encUint (UInt64.ofNat (Crc32.checksum (handRaw b)).toNat)) := by
    simp [handBytes, encArray, encTag]
  rw [this, a1]
  exact ⟨_, rfl⟩

/-- **C153, reading back.** The bytes of a Byron address put together by hand are read back as this very address when the
root hash has 28 bytes and the type is 0; in every other case (a nil hash among them) reading them is an error. They are
never read as another address, and reading never panics. -/
theorem C153_read_back (strict : Bool) (b : HandByron) (spare : Bytes) (h : InMemory b) :
    (∀ hash, b.hash = some hash → hash.length = 28 → b.tag = 0 →
      NewAddressFromBytes strict (handBytes b) spare = .ok (.byron ⟨hash, b.attributes, 0⟩)) ∧
    ((∀ hash, b.hash = some hash → hash.length = 28 → b.tag ≠ 0) →
      ∃ m, NewAddressFromBytes strict (handBytes b) spare = .err m) := by
  obtain ⟨t, e⟩ := hand_cons b
  have key : NewAddressFromBytes strict (handBytes b) spare = (unmarshal strict (handBytes b) >>= fun b => .ok (.byron b)) := by
    rw [e]; exact parse_byron _ _ _ _ (by decide)
  rw [key, hand_unmarshal strict b h]
  constructor
  · intro hash e1 e2 e3
    rw [if_neg (by rw [e1, e3]; simp [e2]), e1, e3]
    rfl
  · intro hn
    rw [if_pos]
    · exact ⟨_, rfl⟩
    · cases hh : b.hash with
      | none => left; simp
      | some hash =>
        by_cases h28 : hash.length = 28
        · exact Or.inr (hn hash hh h28)
        · left; simpa using h28

/-- **C153, texts.** The same for `String` and `NewAddress`, provided the text does not start with "addr" or "stake" (about
such texts see `C04_byron_string_misread`). -/
theorem C153_read_text (strict : Bool) (b : HandByron) (spare : Bytes) (h : InMemory b)
    (hp : ¬ (asc ['a','d','d','r'] <+: handString b) ∧ ¬ (asc ['s','t','a','k','e'] <+: handString b)) :
    (∀ hash, b.hash = some hash → hash.length = 28 → b.tag = 0 →
      NewAddress strict (handString b) spare = .ok (.byron ⟨hash, b.attributes, 0⟩)) ∧
    ((∀ hash, b.hash = some hash → hash.length = 28 → b.tag ≠ 0) →
      ∃ m, NewAddress strict (handString b) spare = .err m) := by
  have key : ∀ p : Bytes, ¬ (p <+: handString b) → hasPrefix (handString b) p = false := by
    intro p hp
    rw [Bool.eq_false_iff]
    intro h
    unfold hasPrefix at h
    rw [beq_iff_eq] at h
    exact hp ⟨(handString b).drop p.length, by conv => lhs; lhs; rw [← h]
                                               exact List.take_append_drop _ _⟩
  have e : NewAddress strict (handString b) spare = NewAddressFromBytes strict (handBytes b) spare := by
    unfold NewAddress
    rw [key _ hp.1, key _ hp.2]
    simp only [Bool.or_self, Bool.false_eq_true, if_false, handString, Base58.decode_encode]
  rw [e]
  exact C153_read_back strict b spare h

/-- **C153, no two alike.** Different Byron addresses put together by hand have different bytes and different texts, whatever
their hashes and types are (unlike other addresses, `C106_collisions`). -/
theorem C153_distinct (b b' : HandByron) (h : InMemory b) (h' : InMemory b') (hne : b ≠ b') :
    handBytes b ≠ handBytes b' ∧ handString b ≠ handString b' := by
  have key : handBytes b ≠ handBytes b' := by
    intro e
    have e1 := ((hand_bytes_enc b h).inj (hand_bytes_enc b' h') [] [] (by rw [e])).1
    simp only [Item.array.injEq, List.cons.injEq, Item.tag.injEq, Item.bytes.injEq] at e1
    have e2 := e1.1.2
    have e3 := ((hand_enc b h).inj (hand_enc b' h') [] [] (by rw [e2])).1
    have d := hand_decode true b h
    rw [e2, hand_decode true b' h'] at d
    simp only [Res.ok.injEq, ByronAddress.mk.injEq] at d
    simp only [handItem, Item.array.injEq, List.cons.injEq] at e3
    have hh : b.hash = b'.hash := by
      have := e3.1
      cases hb : b.hash <;> cases hb' : b'.hash <;> rw [hb, hb'] at this <;> simp_all [hashItem]
    apply hne
    cases b; cases b'
    simp_all
  refine ⟨key, fun e => key ?_⟩
  have := congrArg Base58.decode e
  simpa only [handString, Base58.decode_encode] using this

/-- **C153, ordinary addresses.** With a hash that is not nil, the bytes are those of the address in `C04`. -/
theorem C153_ordinary (b : ByronAddress) : handBytes ⟨some b.hash, b.attributes, b.tag⟩ = bytes (.byron b) := rfl

/-- Non-vacuity: a nil hash, an empty one, a public key in place of its hash, a script address; the first two differ in bytes. -/
example : InMemory ⟨none, ⟨[], none⟩, 0⟩ ∧ InMemory ⟨some [], ⟨[], none⟩, 0⟩ ∧ InMemory ⟨some (List.replicate 32 7), ⟨[1], some 3⟩, 0⟩ ∧
    InMemory ⟨some (List.replicate 28 7), ⟨[], none⟩, 1⟩ ∧ handRaw ⟨none, ⟨[], none⟩, 0⟩ = [0x83, 0xf6, 0xa0, 0x00] ∧
    handRaw ⟨some [], ⟨[], none⟩, 0⟩ = [0x83, 0x40, 0xa0, 0x00] := by
  refine ⟨?_, ?_, ?_, ?_, by decide, by decide⟩ <;> simp [InMemory]

/-- The text of the address with a nil hash starts with neither "addr" nor "stake": it is refused by `C153_read_text`. -/
example : ¬ (asc ['a','d','d','r'] <+: handString ⟨none, ⟨[], none⟩, 0⟩) ∧ ¬ (asc ['s','t','a','k','e'] <+: handString ⟨none, ⟨[], none⟩, 0⟩) := by
  decide +kernel

end Props
end Cardano
