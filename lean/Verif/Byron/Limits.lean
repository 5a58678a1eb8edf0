import Verif.Byron.Lemmas
/-!
# Reading Byron addresses with the limits of the CBOR library

`Byron/Model` reads every well-formed item. The library (fxamacker/cbor v2.4.0, external) refuses some of them before it looks
at the Go type: items nested too deeply, arrays and maps with too many elements, texts that are not UTF-8. Which items it
refuses is the parameter `ok` here; the functions are otherwise those of `Byron/Model` and `Address/Model`.
-/
set_option autoImplicit false

namespace Cardano
open Cbor

namespace Byron

/-- byron.go:83-92 `cbor.Unmarshal(rawTag, &byron)`, refusing items that are not `ok`. -/
def decodeRawL (ok : Item → Bool) (strict : Bool) (raw : Bytes) : Res ByronAddress :=
  match parseFirst raw with
  | none => .err "cbor: not well-formed"
  | some (x, _) => if ok x then decodeRaw strict raw else .err "cbor: limit"

/-- byron.go:60-105 `UnmarshalCBOR`, given the item read from the data. -/
def ofItemL (ok : Item → Bool) (strict : Bool) (x : Item) : Res ByronAddress :=
  match stripTags x with
  | .array [t, c] => do
    let crc ← toUint (2 ^ 32 - 1) c
    match t with
    | .tag n (.bytes rawTag) =>
      if n ≠ 24 then .err "invalid byron address"
      else if (crc.getD 0) ≠ (Crc32.checksum rawTag).toNat then .err "invalid byron checksum"
      else do
        let b ← decodeRawL ok strict rawTag
        if b.hash.length ≠ 28 ∨ b.tag ≠ 0 then .err ""
        else return b
    | .tag _ _ => .err "invalid byron address"
    | .simple n => if n = 22 ∨ n = 23 then .err "invalid byron address" else .err "cbor: cannot unmarshal"
    | _ => .err "cbor: cannot unmarshal"
  | _ => .err "cbor: cannot unmarshal"

/-- address.go:71 `cbor.Unmarshal(data, &byron)`. -/
def unmarshalL (ok : Item → Bool) (strict : Bool) (data : Bytes) : Res ByronAddress :=
  match parseFirst data with
  | none => .err "cbor: not well-formed"
  | some (x, rest) =>
    if ok x = false then .err "cbor: limit"
    else if strict ∧ rest ≠ [] then .err "cbor: extraneous data" else ofItemL ok strict x

/-- What is required of the limits: they let the items of Byron addresses through. These are arrays of at most three elements,
nested at most two deep, with a map of at most two integer keys whose values are integers or byte strings. -/
structure Modest (ok : Item → Bool) : Prop where
  outer : ∀ raw c, ok (.array [.tag 24 (.bytes raw), .uint c]) = true
  inner : ∀ h kvs t, kvs.length ≤ 4 → (∀ x ∈ kvs, (∃ n, x = .uint n) ∨ ∃ p, x = .bytes p) →
    ok (.array [.bytes h, .map kvs, .uint t]) = true

mutual
/-- The limits that the library documents: at most `d` nested arrays, maps and tags, at most 131072 elements or pairs, and texts
that are `utf8`. -/
def within (utf8 : Bytes → Bool) : Nat → Item → Bool
  | _, .text b => utf8 b
  | d, .array xs => decide (0 < d ∧ xs.length ≤ 131072) && withinAll utf8 (d - 1) xs
  | d, .map kvs => decide (0 < d ∧ kvs.length ≤ 2 * 131072) && withinAll utf8 (d - 1) kvs
  | d, .tag _ x => decide (0 < d) && within utf8 (d - 1) x
  | _, _ => true
/-- The same for all elements of a list. -/
def withinAll (utf8 : Bytes → Bool) : Nat → List Item → Bool
  | _, [] => true
  | d, x :: xs => within utf8 d x && withinAll utf8 d xs
end

theorem withinAll_flat (utf8 : Bytes → Bool) (d : Nat) (l : List Item)
    (h : ∀ x ∈ l, (∃ n, x = .uint n) ∨ ∃ p, x = .bytes p) : withinAll utf8 d l = true := by
  induction l with
  | nil => simp [withinAll]
  | cons a l ih =>
    have h1 := ih (fun x hx => h x (List.mem_cons_of_mem _ hx))
    rcases h a List.mem_cons_self with ⟨n, rfl⟩ | ⟨p, rfl⟩ <;> simp [withinAll, within, h1]

/-- The documented limits are modest, with any check of texts and any depth from 2 (the library: 32). -/
theorem within_modest (utf8 : Bytes → Bool) (d : Nat) (hd : 2 ≤ d) : Modest (within utf8 d) where
  outer raw c := by
    simp [within, withinAll]; omega
  inner h kvs t hl hk := by
    simp [within, withinAll, withinAll_flat utf8 _ kvs hk]; omega

/-- Without limits it is the model of `Byron/Model`. -/
theorem decodeRawL_cases (ok : Item → Bool) (strict : Bool) (raw : Bytes) :
    decodeRawL ok strict raw = decodeRaw strict raw ∨ ∃ m, decodeRawL ok strict raw = .err m := by
  unfold decodeRawL
  cases h : parseFirst raw with
  | none => exact .inr ⟨_, rfl⟩
  | some p =>
    obtain ⟨x, r⟩ := p
    simp only
    split
    · exact .inl rfl
    · exact .inr ⟨_, rfl⟩

theorem ofItemL_cases (ok : Item → Bool) (strict : Bool) (x : Item) :
    ofItemL ok strict x = ofItem strict x ∨ ∃ m, ofItemL ok strict x = .err m := by
  unfold ofItemL ofItem
  split
  · rename_i t c hx
    simp only [hx]
    cases hc : toUint (2 ^ 32 - 1) c with
    | err m => exact .inl rfl
    | panic => exact .inl rfl
    | ok crc =>
      simp only [Res.ok_bind]
      split
      · rename_i n raw
        simp only
        split
        · exact .inl rfl
        · split
          · exact .inl rfl
          · rcases decodeRawL_cases ok strict raw with e | ⟨m, e⟩
            · rw [e]; exact .inl rfl
            · rw [e]; exact .inr ⟨m, rfl⟩
      all_goals first | exact .inr ⟨_, rfl⟩ | (split <;> exact .inr ⟨_, rfl⟩)
  · exact .inr ⟨_, rfl⟩

/-- With limits a Byron address is read as without, or there is an error. -/
theorem unmarshalL_cases (ok : Item → Bool) (strict : Bool) (data : Bytes) :
    unmarshalL ok strict data = unmarshal strict data ∨ ∃ m, unmarshalL ok strict data = .err m := by
  unfold unmarshalL unmarshal
  cases h : parseFirst data with
  | none => exact .inl rfl
  | some p =>
    obtain ⟨x, r⟩ := p
    simp only
    split
    · exact .inr ⟨_, rfl⟩
    · split
      · exact .inl rfl
      · exact ofItemL_cases ok strict x

theorem flatPairs_attr (a : ByronAttributes) : (flatPairs (attrPairs a)).length ≤ 4 ∧
    ∀ x ∈ flatPairs (attrPairs a), (∃ n, x = .uint n) ∨ ∃ p, x = .bytes p := by
  obtain ⟨p, n⟩ := a
  unfold attrPairs
  by_cases hp : p.length = 0 <;> cases n <;> simp [hp, flatPairs]

theorem decodeRawL_of (ok : Item → Bool) (hok : Modest ok) (strict : Bool) (b : ByronAddress) (h : Spec.ByronOk b) :
    decodeRawL ok strict (rawBytes b) = .ok b := by
  have e := (raw_enc b h).parseFirst []
  rw [List.append_nil] at e
  unfold decodeRawL
  rw [e]
  simp only
  rw [if_pos (hok.inner _ _ _ (flatPairs_attr _).1 (flatPairs_attr _).2), decodeRaw_of strict b h]

theorem unmarshalL_of (ok : Item → Bool) (hok : Modest ok) (strict : Bool) (b : ByronAddress) (h : Spec.ByronOk b) :
    unmarshalL ok strict (bytes b) = .ok b := by
  have hc : (UInt64.ofNat (Crc32.checksum (rawBytes b)).toNat).toNat = (Crc32.checksum (rawBytes b)).toNat :=
    ofNat64 _ (by have := UInt32.toNat_lt (Crc32.checksum (rawBytes b)); omega)
  have e := (bytes_enc (rawBytes b) (raw_length b h) (UInt64.ofNat (Crc32.checksum (rawBytes b)).toNat)).parseFirst []
  rw [List.append_nil, hc] at e
  have e' : parseFirst (bytes b) = _ := e
  have hle : (Crc32.checksum (rawBytes b)).toNat ≤ 4294967295 := by
    have := UInt32.toNat_lt (Crc32.checksum (rawBytes b)); omega
  have hd := decodeRawL_of ok hok strict b h
  obtain ⟨h1, h2, _⟩ := h
  unfold unmarshalL
  rw [e']
  simp [ofItemL, stripTags, toUint, hle, hd, h1, h2, hok.outer]

end Byron

namespace Addr

/-- address.go:57-74, 75-155 `NewAddressFromBytes`: only Byron addresses are read by the CBOR library. -/
def NewAddressFromBytesL (ok : Item → Bool) (strict : Bool) (data spare : Bytes) : Res Address :=
  match data with
  | [] => .panic
  | header :: _ =>
    if (header &&& 0xF0) >>> 4 = 8 then do
      let b ← Byron.unmarshalL ok strict data
      return .byron b
    else NewAddressFromBytes strict data spare

/-- address.go:32-46 `NewAddress`. -/
def NewAddressL (ok : Item → Bool) (strict : Bool) (raw spare : Bytes) : Res Address :=
  if hasPrefix raw (asc ['a','d','d','r']) || hasPrefix raw (asc ['s','t','a','k','e']) then
    match Bech32.Decode raw with
    | .ok (_, data) => NewAddressFromBytesL ok strict data spare
    | .err m => .err m
    | .panic => .panic
  else NewAddressFromBytesL ok strict (Base58.decode raw) spare

/-- address.go:48-55 `NewAddressFromHex`. -/
def NewAddressFromHexL (ok : Item → Bool) (strict : Bool) (hexAddr spare : Bytes) : Res Address :=
  match Hex.decode hexAddr with
  | (_, some e) => .err e
  | (data, none) => NewAddressFromBytesL ok strict data spare

theorem fromBytesL_cases (ok : Item → Bool) (strict : Bool) (data spare : Bytes) :
    NewAddressFromBytesL ok strict data spare = NewAddressFromBytes strict data spare ∨
      ∃ m, NewAddressFromBytesL ok strict data spare = .err m := by
  cases data with
  | nil => exact .inl rfl
  | cons header t =>
    by_cases hty : (header &&& 0xF0) >>> 4 = 8
    · simp only [NewAddressFromBytesL, NewAddressFromBytes, hty, if_true]
      rcases Byron.unmarshalL_cases ok strict (header :: t) with e | ⟨m, e⟩
      · rw [e]; exact .inl rfl
      · rw [e]; exact .inr ⟨m, rfl⟩
    · refine .inl ?_
      simp only [NewAddressFromBytesL, hty, if_false]

end Addr
end Cardano
