import Verif.Byron.Lemmas
import Verif.Byron.LongText
import Mathlib.Data.Fintype.Card
import Verif.Address.Alias
import Verif.Props.Address
/-!
# Properties C04, C47, C48 (Byron addresses) and C49 (aliasing)
-/
set_option autoImplicit false

namespace Cardano.Props
open Cardano.Spec Cardano.Addr Cbor

/-- **C04, bytes.** Parsing the bytes of a Byron address with a 28-byte root hash and type tag 0 gives back the address,
for every derivation-path payload and every network attribute. -/
theorem C04_byron_bytes_roundtrip (strict : Bool) (b : ByronAddress) (spare : Bytes) (h : ByronOk b) :
    NewAddressFromBytes strict (bytes (.byron b)) spare = .ok (.byron b) := by
  obtain ⟨t, e⟩ := Byron.bytes_cons b
  have he : bytes (.byron b) = 0x82 :: t := e
  rw [he, parse_byron _ _ _ _ (by decide), ← e, Byron.unmarshal_of strict b h]
  rfl

/-- The payload of a Byron address has at least 30 bytes. -/
theorem byron_raw_min (b : ByronAddress) (h : ByronOk b) : 30 ≤ (Byron.rawBytes b).length := by
  obtain ⟨h1, _, _⟩ := h
  have e5 := encHead_length_pos 0x80 (UInt64.ofNat [encBytes b.hash, Byron.attrBytes b.attributes, encUint b.tag].length)
  have e6 := encHead_length_pos 0x40 (UInt64.ofNat b.hash.length)
  have e7 : 1 ≤ (encUint b.tag).length := encHead_length_pos _ _
  unfold Byron.rawBytes encArray
  simp only [List.flatten_cons, List.flatten_nil, List.append_nil, List.length_append, encBytes] at *
  omega

/-- **C04, string (partial).** The base58 string of a Byron address of at most 2039212 bytes parses back to the address
(addresses on chain have about 80 bytes). Missing: longer addresses. For them the claim is false, beginning with the very
next length: `C04_byron_string_misread`. -/
theorem C04_byron_string_roundtrip_partial (strict : Bool) (b : ByronAddress) (spare : Bytes) (h : ByronOk b)
    (hp : (bytes (.byron b)).length < 2039213) :
    ∃ s, string (.byron b) = .ok s ∧ NewAddress strict s spare = .ok (.byron b) := by
  refine ⟨_, rfl, ?_⟩
  unfold NewAddress
  rw [if_neg (by rw [Byron.long_not_bech32 b (byron_raw_min b h) hp]; decide), Base58.decode_encode]
  exact C04_byron_bytes_roundtrip strict b spare h

/-- **C04, the bound is exact.** The base58 string of every Byron address with exactly 2039213 bytes begins with "addrA": it
is taken for bech32 and refused. (Such addresses exist: see the example behind C47.) -/
theorem C04_byron_string_misread (strict : Bool) (b : ByronAddress) (spare : Bytes)
    (hp : (bytes (.byron b)).length = 2039213) :
    ∃ s, string (.byron b) = .ok s ∧ asc ['a','d','d','r','A'] <+: s ∧ NewAddress strict s spare = .err "mixed case" := by
  obtain ⟨l, hl⟩ := Byron.long_text b hp
  refine ⟨asc ['a','d','d','r','A'] ++ l, ?_, List.prefix_append _ _, ?_⟩
  · rw [← hl]; rfl
  · unfold NewAddress
    rw [if_pos, Byron.long_mixed]
    rfl

/-- C04 for strings of any length, provided the base58 text does not start with "addr" or "stake". -/
theorem C04_byron_string_roundtrip_general (strict : Bool) (b : ByronAddress) (spare s : Bytes) (h : ByronOk b)
    (hs : string (.byron b) = .ok s)
    (hp : ¬ (asc ['a','d','d','r'] <+: s) ∧ ¬ (asc ['s','t','a','k','e'] <+: s)) :
    NewAddress strict s spare = .ok (.byron b) := by
  have e : s = Base58.encode (Byron.bytes b) := by
    have : string (.byron b) = .ok (Base58.encode (Byron.bytes b)) := rfl
    rw [this] at hs; cases hs; rfl
  have key : ∀ p : Bytes, ¬ (p <+: s) → hasPrefix s p = false := by
    intro p hp
    rw [Bool.eq_false_iff]
    intro h
    unfold hasPrefix at h
    rw [beq_iff_eq] at h
    exact hp ⟨s.drop p.length, by conv => lhs; lhs; rw [← h]
                                  exact List.take_append_drop _ _⟩
  unfold NewAddress
  rw [key _ hp.1, key _ hp.2, e]
  simp only [Bool.or_self, Bool.false_eq_true, if_false, Base58.decode_encode]
  exact C04_byron_bytes_roundtrip strict b spare h

/-- Non-vacuity for C04. -/
example : ByronOk ⟨List.replicate 28 0xab, ⟨[1, 2, 3], some 42⟩, 0⟩ := ⟨rfl, rfl, by decide⟩

/-! ### C48 -/

/-- The unsigned integer that the CBOR library reads from an item stored in the checksum field: integers as such, simple
values by number, null as 0, big numbers (tag 2) by value, other tags ignored. -/
inductive Denotes : Item → Nat → Prop
  | uint (n : Nat) : Denotes (.uint n) n
  | simple (n : Nat) (h : n < 20 ∨ 24 ≤ n) : Denotes (.simple n) n
  | null (n : Nat) (h : n = 22 ∨ n = 23) : Denotes (.simple n) 0
  | big (b : Bytes) : Denotes (.tag 2 (.bytes b)) (beVal b)
  | tag (t : Nat) (x : Item) (n : Nat) (h : t ≠ 2 ∧ t ≠ 3) (hx : Denotes x n) : Denotes (.tag t x) n

theorem toUint_denotes (m : Nat) (x : Item) : ∀ o, Byron.toUint m x = .ok o → Denotes x (o.getD 0) := by
  induction x using Byron.toUint.induct m with
  | case1 n h => intro o; simp only [Byron.toUint, h, if_true]; intro e; cases e; exact .uint n
  | case2 n h => intro o; simp only [Byron.toUint, h, if_false]; intro e; cases e
  | case3 n h => intro o; simp only [Byron.toUint, h, if_true]; intro e; cases e; exact .null n h
  | case4 n h h' => intro o; simp only [Byron.toUint, h, h', if_true, if_false]; intro e; cases e
  | case5 n h h' h'' =>
    intro o; simp only [Byron.toUint, h, h', h'', if_true, if_false]; intro e; cases e
    exact .simple n (by omega)
  | case6 n h h' h'' => intro o; simp only [Byron.toUint, h, h', h'', if_false]; intro e; cases e
  | case7 b h => intro o; simp only [Byron.toUint, h, if_true]; intro e; cases e; exact .big b
  | case8 b h => intro o; simp only [Byron.toUint, h, if_false]; intro e; cases e
  | case9 x h => intro o; simp_all [Byron.toUint]
  | case10 x => intro o; simp [Byron.toUint]
  | case11 t x h1 h2 h3 ih =>
    intro o e
    have hne : t ≠ 2 ∧ t ≠ 3 := ⟨fun h => h2 h, fun h => h3 h⟩
    refine .tag t x _ hne (ih o ?_)
    conv at e => lhs; unfold Byron.toUint
    simpa only using e
  | case12 x => intro o; cases x <;> simp_all [Byron.toUint]

/-- **C48.** An accepted Byron address starts with a two-element array of a tag-24 byte string and a checksum item, the
checksum item denotes the CRC-32 of the byte string, the root hash has 28 bytes, the type is 0; and the reported
network is MainNet exactly when the network attribute is absent. -/
theorem C48_accepted_byron_valid (strict : Bool) (data spare : Bytes) (b : ByronAddress)
    (h : NewAddressFromBytes strict data spare = .ok (.byron b)) :
    (∃ payload c rest, parseFirst data = some (.array [.tag 24 (.bytes payload), c], rest) ∧
      Denotes c (Crc32.checksum payload).toNat) ∧
    b.hash.length = 28 ∧ b.tag = 0 ∧ (networkInfo (.byron b) = MainNet ↔ b.attributes.network = none) := by
  cases data with
  | nil => cases h
  | cons hd t =>
    have hty := ((C12_header_decides_type strict hd t spare).1 _ h).1
    have h8 : hd.toNat / 16 = 8 := by
      rcases nibble_cases hd with hy | hy | hy | hy | hy | hy
      · rw [typeTable_base hy] at hty; simp [kindOfAddress] at hty
      · rcases hy with e | e <;> rw [e] at hty <;> simp [typeTable, kindOfAddress] at hty
      · rcases hy with e | e <;> rw [e] at hty <;> simp [typeTable, kindOfAddress] at hty
      · exact hy
      · rw [parse_unknown _ _ _ _ hy] at h; cases h
      · rcases hy with e | e <;> rw [e] at hty <;> simp [typeTable, kindOfAddress] at hty
    rw [parse_byron _ _ _ _ h8] at h
    obtain ⟨b', hb, e⟩ := bind_ok h
    cases e
    -- the first item is an array: its first byte has major type 4
    unfold Byron.unmarshal at hb
    split at hb
    · cases hb
    rename_i x rest hx
    split at hb
    · cases hb
    have hnet : (networkInfo (.byron b) = MainNet ↔ b.attributes.network = none) := by
      simp only [networkInfo]
      by_cases hn : b.attributes.network = none
      · simp [hn]
      · simp only [hn, if_false, iff_false]; decide
    have hstrip : Byron.stripTags x = x := by
      have hhd := UInt8.toNat_lt hd
      unfold parseFirst readItem readItemWith at hx
      split at hx
      · cases hx
      rename_i major ai n r hr
      have hmaj : major = 4 := by
        unfold readHead at hr
        simp only at hr
        split at hr
        · cases hr; omega
        split at hr
        · split at hr
          · cases hr
          · cases hr; omega
        split at hr
        · cases hr; omega
        · cases hr
      subst hmaj
      simp only at hx
      obtain ⟨⟨y, r'⟩, _, hy⟩ := Option.map_eq_some_iff.1 hx
      cases hy; rfl
    unfold Byron.ofItem at hb
    rw [hstrip] at hb
    split at hb
    · rename_i tg c
      replace hb := bind_ok hb
      obtain ⟨o, hc, hb⟩ := hb
      split at hb
      · rename_i n rawTag
        split at hb
        · cases hb
        rename_i hn
        split at hb
        · cases hb
        rename_i hcrc
        replace hb := bind_ok hb
        obtain ⟨bb, _, hb⟩ := hb
        split at hb
        · cases hb
        rename_i hok
        cases hb
        have hn : n = 24 := by omega
        subst hn
        refine ⟨⟨rawTag, c, rest, hx, ?_⟩, ?_, ?_, hnet⟩
        · have := toUint_denotes _ _ _ hc
          have e : o.getD 0 = (Crc32.checksum rawTag).toNat := Decidable.byContradiction hcrc
          rwa [e] at this
        · exact Decidable.byContradiction fun hh => hok (Or.inl hh)
        · exact Decidable.byContradiction fun hh => hok (Or.inr hh)
      · cases hb
      · split at hb <;> cases hb
      · cases hb
    · cases hb

/-- Non-vacuity for C48: accepted Byron addresses exist (C04). -/
example : ∃ data b, NewAddressFromBytes true data [] = .ok (.byron b) :=
  ⟨_, _, C04_byron_bytes_roundtrip true ⟨List.replicate 28 0xab, ⟨[1, 2, 3], some 42⟩, 0⟩ [] ⟨rfl, rfl, by decide⟩⟩

/-! ### C47 -/

/-- Bit `j` of a byte string, least significant bit of each byte first (the transmission order of CRC-32). -/
def bitAt (p : Bytes) (j : Nat) : Bool := (p.getD (j / 8) 0).toNat.testBit (j % 8)

theorem denotes_fun {x : Item} {n m : Nat} (h : Denotes x n) : Denotes x m → n = m := by
  induction h generalizing m with
  | uint n => intro h; cases h; rfl
  | simple n hn => intro h; cases h <;> omega
  | null n hn => intro h; cases h <;> omega
  | big b =>
    intro h
    cases h with
    | big => rfl
    | tag _ _ _ hne => omega
  | tag t x n hne hx ih =>
    intro h
    cases h with
    | big => omega
    | tag _ _ _ _ hx' => exact ih hx'

theorem allBits_getElem (p : Bytes) (j : Nat) (hj : j < (Crc32.allBits p).length) : (Crc32.allBits p)[j] = bitAt p j := by
  induction p generalizing j with
  | nil => simp [Crc32.allBits] at hj
  | cons x p ih =>
    have hl : (Crc32.byteBits x).length = 8 := by simp [Crc32.byteBits]
    have e : Crc32.allBits (x :: p) = Crc32.byteBits x ++ Crc32.allBits p := rfl
    simp only [e]
    by_cases h8 : j < 8
    · rw [List.getElem_append_left (by omega)]
      unfold bitAt Crc32.byteBits
      have : j / 8 = 0 := by omega
      have h9 : j % 8 = j := by omega
      simp [this, h9]
    · have hj' : j - 8 < (Crc32.allBits p).length := by rw [e, List.length_append] at hj; omega
      rw [List.getElem_append_right (by omega)]
      simp only [hl]
      rw [ih (j - 8) hj']
      unfold bitAt
      have : j / 8 = (j - 8) / 8 + 1 := by omega
      have h9 : j % 8 = (j - 8) % 8 := by omega
      rw [this, h9]; rfl

theorem allBits_length (p : Bytes) : (Crc32.allBits p).length = 8 * p.length := by
  induction p with
  | nil => rfl
  | cons x p ih =>
    have e : Crc32.allBits (x :: p) = Crc32.byteBits x ++ Crc32.allBits p := rfl
    rw [e, List.length_append, ih]; simp [Crc32.byteBits]; omega

theorem allBits_false (p : Bytes) (h : ∀ b ∈ Crc32.allBits p, b = false) : ∀ x ∈ p, x = 0 := by
  intro x hx
  have key : ∀ x : UInt8, (∀ b ∈ Crc32.byteBits x, b = false) → x = 0 := forall_byte (by decide +kernel)
  exact key x (fun b hb => h b (List.mem_flatMap.2 ⟨x, hx, hb⟩))

/-- CRC-32 detects every change within 32 consecutive bits. -/
theorem crc_burst (p p' : Bytes) (i : Nat) (hl : p.length = p'.length)
    (hout : ∀ j, j < i ∨ i + 32 ≤ j → bitAt p j = bitAt p' j) (he : Crc32.checksum p = Crc32.checksum p') : p = p' := by
  rw [Crc32.checksum_eq_iff _ _ hl, Crc32.foldl_bits] at he
  have hz := Crc32.bit_burst (Crc32.allBits (List.zipWith (· ^^^ ·) p p')) i ?_ he
  · have h0 := allBits_false _ hz
    apply List.ext_getElem hl
    intro k h1 h2
    have := h0 _ (List.getElem_mem (l := List.zipWith (· ^^^ ·) p p') (n := k) (by simp; omega))
    rw [List.getElem_zipWith] at this
    exact UInt8.xor_eq_zero_iff.1 this
  · intro j hj hw
    rw [allBits_getElem]
    have := hout j hw
    have hlen : (List.zipWith (· ^^^ ·) p p').length = p.length := by simp; omega
    rw [allBits_length, hlen] at hj
    unfold bitAt at this ⊢
    have h1 : j / 8 < p.length := by omega
    have h2 : j / 8 < p'.length := by omega
    rw [List.getD_eq_getElem?_getD, List.getElem?_eq_getElem (by omega), Option.getD_some, List.getElem_zipWith]
    rw [List.getD_eq_getElem?_getD, List.getElem?_eq_getElem h1, Option.getD_some,
      List.getD_eq_getElem?_getD, List.getElem?_eq_getElem h2, Option.getD_some] at this
    rw [UInt8.toNat_xor, Nat.testBit_xor, this]; simp

/-- **C47.** Take an accepted Byron address and change its tag-24 payload (same length, same checksum field) only inside
a window of 32 consecutive bits: the result is not accepted. Bits are numbered in the order CRC-32 reads them. -/
theorem C47_byron_burst_detected (strict strict' : Bool) (data data' spare spare' : Bytes) (b : ByronAddress)
    (p p' : Bytes) (c : Item) (rest rest' : Bytes) (i : Nat)
    (h : NewAddressFromBytes strict data spare = .ok (.byron b))
    (hd : parseFirst data = some (.array [.tag 24 (.bytes p), c], rest))
    (hd' : parseFirst data' = some (.array [.tag 24 (.bytes p'), c], rest'))
    (hl : p.length = p'.length) (hne : p ≠ p') (hout : ∀ j, j < i ∨ i + 32 ≤ j → bitAt p j = bitAt p' j) :
    ∀ b', NewAddressFromBytes strict' data' spare' ≠ .ok (.byron b') := by
  intro b' hb'
  obtain ⟨⟨q, cc, r, e, hc⟩, _⟩ := C48_accepted_byron_valid _ _ _ _ h
  obtain ⟨⟨q', cc', r', e', hc'⟩, _⟩ := C48_accepted_byron_valid _ _ _ _ hb'
  rw [hd] at e
  rw [hd'] at e'
  cases e
  cases e'
  have := denotes_fun hc hc'
  exact hne (crc_burst p p' i hl hout (UInt32.toNat_inj.1 this))

/-- Changes of four consecutive bytes stay in a window of 32 bits. -/
theorem window (pre w w' post : Bytes) (hw : w.length = 4) (hw' : w'.length = 4) (j : Nat)
    (hj : j < 8 * pre.length ∨ 8 * pre.length + 32 ≤ j) : bitAt (pre ++ w ++ post) j = bitAt (pre ++ w' ++ post) j := by
  unfold bitAt
  have : (pre ++ w ++ post).getD (j / 8) 0 = (pre ++ w' ++ post).getD (j / 8) 0 := by
    rw [List.getD_eq_getElem?_getD, List.getD_eq_getElem?_getD]
    congr 1
    rcases hj with hj | hj
    · rw [List.append_assoc, List.append_assoc, List.getElem?_append_left (by omega), List.getElem?_append_left (by omega)]
    · rw [List.getElem?_append_right (by simp; omega), List.getElem?_append_right (by simp; omega)]
      congr 1
      simp [hw, hw']
  rw [this]

/-- C47 for the bytes that the library itself produces: a serialised Byron address in which four consecutive bytes of
the payload were changed arbitrarily is rejected. -/
theorem C47_byron_four_bytes_detected (strict : Bool) (b : ByronAddress) (hb : ByronOk b) (pre w w' post spare : Bytes)
    (hp : Byron.rawBytes b = pre ++ w ++ post) (hw : w.length = 4) (hw' : w'.length = 4) (hne : w ≠ w') :
    ∀ b', NewAddressFromBytes strict
      (encArray [encTag 24 (encBytes (pre ++ w' ++ post)), encUint (UInt64.ofNat (Crc32.checksum (Byron.rawBytes b)).toNat)]) spare
        ≠ .ok (.byron b') := by
  have hlen : (pre ++ w ++ post).length = (pre ++ w' ++ post).length := by simp [hw, hw']
  have hraw := Byron.raw_length b hb
  have e1 := (Byron.bytes_enc (Byron.rawBytes b) hraw (UInt64.ofNat (Crc32.checksum (Byron.rawBytes b)).toNat)).parseFirst []
  have e2 := (Byron.bytes_enc (pre ++ w' ++ post) (by rw [← hlen, ← hp]; exact hraw)
    (UInt64.ofNat (Crc32.checksum (Byron.rawBytes b)).toNat)).parseFirst []
  rw [List.append_nil] at e1 e2
  refine C47_byron_burst_detected strict strict _ _ [] spare b _ _ _ _ _ (8 * pre.length)
    (C04_byron_bytes_roundtrip strict b [] hb) e1 e2 (by rw [hp]; exact hlen) ?_ ?_
  · rw [hp]
    intro e
    simp only [List.append_assoc] at e
    have := List.append_cancel_left e
    exact hne (List.append_inj this (by omega)).1
  · intro j hj
    rw [hp]
    exact window pre w w' post hw hw' j hj

/-- Of 65537 byte strings that differ in four bytes only, one has a checksum of more than 16 bits. -/
theorem long_crc (pre post : Bytes) : ∃ x : Fin 65537, 65536 ≤ (Crc32.checksum (pre ++ beBytes 4 x.val ++ post)).toNat := by
  by_contra hno
  have hlt : ∀ x : Fin 65537, (Crc32.checksum (pre ++ beBytes 4 x.val ++ post)).toNat < 65536 := by
    intro x
    by_contra h
    exact hno ⟨x, by omega⟩
  have hcard := Fintype.card_le_of_injective
    (fun x : Fin 65537 => (⟨(Crc32.checksum (pre ++ beBytes 4 x.val ++ post)).toNat, hlt x⟩ : Fin 65536)) (by
      intro x y h
      have h' : (Crc32.checksum (pre ++ beBytes 4 x.val ++ post)).toNat = (Crc32.checksum (pre ++ beBytes 4 y.val ++ post)).toNat :=
        (Fin.mk.injEq _ _ _ _).mp h
      have e := crc_burst _ _ (8 * pre.length) (by simp [beBytes_length])
        (window pre (beBytes 4 x.val) (beBytes 4 y.val) post (beBytes_length _ _) (beBytes_length _ _)) (UInt32.toNat_inj.1 h')
      rw [List.append_assoc, List.append_assoc] at e
      have e2 := (List.append_inj (List.append_cancel_left e) (by simp [beBytes_length])).1
      have e3 := congrArg beVal e2
      rw [beVal_beBytes, beVal_beBytes] at e3
      have := x.isLt
      have := y.isLt
      exact Fin.ext (by omega))
  rw [Fintype.card_fin, Fintype.card_fin] at hcard
  omega

/-- Non-vacuity for `C04_byron_string_misread`: a Byron address with exactly 2039213 bytes. -/
theorem long_exists : ∃ b : ByronAddress, ByronOk b ∧ (bytes (.byron b)).length = 2039213 := by
  have key : ∀ N : Nat, N = 2039157 → ∃ b : ByronAddress, ByronOk b ∧ (bytes (.byron b)).length = 2039213 := by
    intro N hN
    have hsplit : ∀ x : Nat, Byron.rawBytes ⟨List.replicate 28 0, ⟨beBytes 4 x ++ List.replicate N 0, none⟩, 0⟩ =
        ([0x83] ++ encBytes (List.replicate 28 0) ++ [0xa1, 0x01] ++ encHead 0x40 (UInt64.ofNat (4 + N))) ++ beBytes 4 x ++
          (List.replicate N 0 ++ [0]) := by
      intro x
      have hne : ¬ (beBytes 4 x ++ List.replicate N (0 : UInt8)).length = 0 := by
        rw [List.length_append, beBytes_length]; omega
      unfold Byron.rawBytes Byron.attrBytes
      rw [if_neg hne]
      have a1 : encHead 0x80 (UInt64.ofNat 3) = [0x83] := by decide
      have a2 : encHead 0xa0 (UInt64.ofNat 1) = [0xa1] := by decide
      have a3 : encUint 1 = [0x01] := by decide
      have a4 : encUint 0 = [0] := by decide
      simp only [encArray, encMap, List.length_cons, List.length_nil, Nat.zero_add, Nat.reduceAdd, a1, a2, a3, a4, List.append_nil,
        List.map_cons, List.map_nil, List.flatten_cons, List.flatten_nil]
      conv => lhs; rw [show encBytes (beBytes 4 x ++ List.replicate N 0) = encHead 0x40 (UInt64.ofNat (4 + N)) ++
        (beBytes 4 x ++ List.replicate N 0) by unfold encBytes; rw [List.length_append, beBytes_length, List.length_replicate]]
      simp only [List.append_assoc, List.cons_append, List.nil_append]
    obtain ⟨x, hx⟩ := long_crc ([0x83] ++ encBytes (List.replicate 28 0) ++ [0xa1, 0x01] ++ encHead 0x40 (UInt64.ofNat (4 + N)))
      (List.replicate N 0 ++ [0])
    rw [← hsplit] at hx
    refine ⟨⟨List.replicate 28 0, ⟨beBytes 4 x.val ++ List.replicate N 0, none⟩, 0⟩, ⟨by simp, rfl, ?_⟩, ?_⟩
    · show (beBytes 4 x.val ++ List.replicate N 0).length < 2 ^ 63
      rw [List.length_append, beBytes_length, List.length_replicate]; omega
    · show (Byron.bytes _).length = _
      have hc := (Byron.crc_length _ (UInt32.toNat_lt _)).2 hx
      have hraw := congrArg List.length (hsplit x.val)
      have h28 : (encBytes (List.replicate 28 0)).length = 30 := by decide
      rw [Byron.head_large _ (by omega) (by omega)] at hraw
      simp only [List.length_append, List.length_cons, List.length_nil, beBytes_length, List.length_replicate, h28] at hraw
      rw [Byron.bytes_split, Byron.head_large _ (by omega) (by omega)]
      simp only [List.length_append, List.length_cons, beBytes_length, hc]
      omega
  exact key _ rfl

/-- Non-vacuity for C47: a one-byte change of a payload stays in a 32-bit window. -/
example : ∀ j, j < 8 ∨ 8 + 32 ≤ j → bitAt [1, 2, 3] j = bitAt [1, 7, 3] j := by
  intro j hj
  unfold bitAt
  rcases hj with hj | hj
  · have : j / 8 = 0 := by omega
    rw [this]; rfl
  · have : ([1, 2, 3] : Bytes).getD (j / 8) 0 = ([1, 7, 3] : Bytes).getD (j / 8) 0 := by
      rw [List.getD_eq_getElem?_getD, List.getD_eq_getElem?_getD, List.getElem?_eq_none (by simp; omega),
        List.getElem?_eq_none (by simp; omega)]
    rw [this]

/-! ### C49 -/

/-- **C49 (partial).** Byron addresses do not share memory with the caller's buffer; of the other types, everything
except the 28-byte credential payloads is independent of later writes. Missing: the payloads, which do alias the
buffer, see `C49_parsed_address_aliases_buffer`. -/
theorem C49_no_alias_partial (strict : Bool) (data spare buf buf' : Bytes) (a : AddressM)
    (h : NewAddressFromBytesM strict data spare = .ok a) :
    kindOfAddress (a.read buf) = kindOfAddress (a.read buf') ∧
    networkInfo (a.read buf) = networkInfo (a.read buf') ∧
    pfx (a.read buf) = pfx (a.read buf') ∧
    (kindOfAddress (a.read buf) = .byron → a.read buf = a.read buf') := by
  cases a <;> simp [AddressM.read, kindOfAddress, networkInfo, pfx]

/-- **C49 is false**: for every enterprise (likewise reward) address there is a later write to the caller's buffer that
changes the address: parse, overwrite byte 1, and the payment hash is a different one. -/
theorem C49_parsed_address_aliases_buffer (strict : Bool) (h x y : UInt8) (t spare : Bytes)
    (hy : h.toNat / 16 = 6 ∨ h.toNat / 16 = 7) (hl : t.length = 27) (hxy : x ≠ y) :
    ∃ a, NewAddressFromBytesM strict (h :: x :: t) spare = .ok a ∧
      NewAddressFromBytes strict (h :: x :: t) spare = .ok (a.read (h :: x :: t ++ spare)) ∧
      a.read (h :: y :: t ++ spare) ≠ a.read (h :: x :: t ++ spare) := by
  have hr := parseM_read strict (h :: x :: t) spare
  have e6 := parse_enterprise strict h (x :: t) spare hy
  rw [if_neg (by simp [hl]), if_neg (by simp [hl])] at e6
  rw [e6] at hr
  cases ha : NewAddressFromBytesM strict (h :: x :: t) spare with
  | err m => rw [ha] at hr; cases hr
  | panic => rw [ha] at hr; cases hr
  | ok a =>
    rw [ha] at hr
    have hr' : AddressM.read (h :: x :: t ++ spare) a = .enterprise (networks (h &&& 0x0F)) ⟨kindOf h 4, x :: t⟩ := by
      simp only [mapRes, Res.ok.injEq] at hr
      exact hr
    refine ⟨a, rfl, by rw [e6, hr'], ?_⟩
    rw [hr']
    -- the payload is the window at offset 1
    have hwin : ∃ n k, a = .enterprise n ⟨k, .window 1 28⟩ := by
      unfold NewAddressFromBytesM at ha
      simp only at ha
      have key : ∀ bit c, readAddrCredM (h :: x :: t) spare h bit 1 = .ok c → ∃ k, c = ⟨k, .window 1 28⟩ := by
        intro bit c hc
        unfold readAddrCredM at hc
        split at hc
        · cases hc
        split at hc <;> (cases hc; exact ⟨_, rfl⟩)
      repeat' (split at ha)
      all_goals first
        | (cases ha; done)
        | (obtain ⟨c, hc, e⟩ := bind_ok ha
           first
           | (cases e
              first
              | (obtain ⟨k, rfl⟩ := key _ _ hc; exact ⟨_, _, rfl⟩)
              | (simp only [AddressM.read] at hr'; cases hr'; done))
           | (obtain ⟨c2, _, e⟩ := bind_ok e
              first
              | (cases e; simp only [AddressM.read] at hr'; cases hr'; done)
              | (obtain ⟨c3, _, e⟩ := bind_ok e
                 obtain ⟨c4, _, e⟩ := bind_ok e
                 obtain ⟨d1, d2⟩ := c4
                 simp only at e
                 split at e
                 · cases e
                 · cases e; simp only [AddressM.read] at hr'; cases hr'; done)))
    obtain ⟨n, k, rfl⟩ := hwin
    simp only [AddressM.read, CredM.read, Mem.read, List.cons_append, List.drop_succ_cons, List.drop_zero, List.take_succ_cons]
    intro e
    injection e with _ e
    injection e with _ e
    injection e with e _
    exact hxy e.symm

/-- Non-vacuity for C49: the bytes of an enterprise address, and the first byte of its hash changed afterwards. -/
example : ∃ a, NewAddressFromBytesM true (0x61 :: 0xab :: List.replicate 27 0xab) [] = .ok a ∧
    a.read (0x61 :: 0xab :: List.replicate 27 0xab) = .enterprise MainNet ⟨0, List.replicate 28 0xab⟩ ∧
    a.read (0x61 :: 0xcd :: List.replicate 27 0xab) = .enterprise MainNet ⟨0, 0xcd :: List.replicate 27 0xab⟩ := ⟨_, rfl, rfl, rfl⟩

end Cardano.Props
