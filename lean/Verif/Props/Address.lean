import Verif.Address.Parse
import Verif.Props.Bech32
/-!
# Properties C01 - C03, C05 - C07, C12 - C16, C50: Shelley-era addresses

In `NewAddressFromBytes strict data spare`, `spare` are the bytes between the length and the capacity of the slice that
the caller passes (Go slice expressions can reach them) and `strict` is a version difference of the CBOR library; both
are arbitrary in every theorem.
-/
set_option autoImplicit false

namespace Cardano.Props
open Cardano.Spec Cardano.Addr

/-- **C01.** Parsing the bytes of a well-formed Shelley-era address gives back the address. -/
theorem C01_bytes_roundtrip (strict : Bool) (a : Address) (spare : Bytes) (ha : ShelleyOk a) :
    NewAddressFromBytes strict (bytes a) spare = .ok a := by
  cases a with
  | base n p s =>
    obtain ⟨hn, ⟨hk, hp⟩, ⟨hk', hs⟩⟩ := ha
    obtain ⟨k, p⟩ := p
    obtain ⟨k', s⟩ := s
    simp only [bytes, copyZ_eq _ _ hp, copyZ_eq _ _ hs]
    simp only at hk hp hk' hs
    have key : ∀ h : UInt8, h.toNat / 16 ≤ 3 → networks (h &&& 0x0F) = n → kindOf h 4 = k → kindOf h 5 = k' →
        NewAddressFromBytes strict (h :: (p ++ s)) spare = .ok (.base n ⟨k, p⟩ ⟨k', s⟩) := by
      intro h h1 h2 h3 h4
      rw [parse_base _ _ _ _ h1, if_pos (by simp only [List.length_cons, List.length_append]; omega), h2, h3, h4]
      have d1 : ((h :: (p ++ s) ++ spare).drop 1).take 28 = p := by rw [← hp]; simp
      have d2 : ((h :: (p ++ s) ++ spare).drop 29).take 28 = s := by
        have : (h :: (p ++ s) ++ spare) = (h :: p) ++ (s ++ spare) := by simp
        rw [this, List.drop_left' (by simp [hp]), List.take_left' hs]
      rw [d1, d2]
    rcases hn with rfl | rfl <;> rcases hk with rfl | rfl <;> rcases hk' with rfl | rfl <;>
      exact key _ (by decide) (by decide) (by decide) (by decide)
  | enterprise n p =>
    obtain ⟨hn, ⟨hk, hp⟩⟩ := ha
    obtain ⟨k, p⟩ := p
    simp only [bytes, copyZ_eq _ _ hp]
    simp only at hk hp
    have key : ∀ h : UInt8, (h.toNat / 16 = 6 ∨ h.toNat / 16 = 7) → networks (h &&& 0x0F) = n → kindOf h 4 = k →
        NewAddressFromBytes strict (h :: p) spare = .ok (.enterprise n ⟨k, p⟩) := by
      intro h h1 h2 h3
      rw [parse_enterprise _ _ _ _ h1, if_neg (by simp [hp]), if_neg (by simp [hp]), h2, h3]
    rcases hn with rfl | rfl <;> rcases hk with rfl | rfl <;> exact key _ (by decide) (by decide) (by decide)
  | pointer n p st =>
    obtain ⟨hn, ⟨hk, hp⟩⟩ := ha
    obtain ⟨k, p⟩ := p
    obtain ⟨a, b, c⟩ := st
    simp only [bytes]
    simp only at hk hp
    have key : ∀ h : UInt8, (h.toNat / 16 = 4 ∨ h.toNat / 16 = 5) → networks (h &&& 0x0F) = n → kindOf h 4 = k →
        NewAddressFromBytes strict (h :: (p ++ VariableNatEncode a ++ VariableNatEncode b ++ VariableNatEncode c)) spare
          = .ok (.pointer n ⟨k, p⟩ ⟨a, b, c⟩) := by
      intro h h1 h2 h3
      obtain ⟨va, wa, _⟩ := encode_spec a
      obtain ⟨vb, wb, _⟩ := encode_spec b
      obtain ⟨vc, wc, _⟩ := encode_spec c
      obtain ⟨s, x, y, e1, e2, e3, e⟩ := parse_pointer_of strict h p _ _ _ spare h1 hp va vb vc
      rw [wa, Nat.mod_eq_of_lt (UInt64.toNat_lt a)] at e1
      rw [wb, Nat.mod_eq_of_lt (UInt64.toNat_lt b)] at e2
      rw [wc, Nat.mod_eq_of_lt (UInt64.toNat_lt c)] at e3
      rw [e, h2, h3, UInt64.toNat_inj.1 e1, UInt64.toNat_inj.1 e2, UInt64.toNat_inj.1 e3]
    rcases hn with rfl | rfl <;> rcases hk with rfl | rfl <;> exact key _ (by decide) (by decide) (by decide)
  | reward n s =>
    obtain ⟨hn, ⟨hk, hs⟩⟩ := ha
    obtain ⟨k, s⟩ := s
    simp only [bytes, copyZ_eq _ _ hs]
    simp only at hk hs
    have key : ∀ h : UInt8, (h.toNat / 16 = 14 ∨ h.toNat / 16 = 15) → networks (h &&& 0x0F) = n → kindOf h 4 = k →
        NewAddressFromBytes strict (h :: s) spare = .ok (.reward n ⟨k, s⟩) := by
      intro h h1 h2 h3
      rw [parse_reward _ _ _ _ h1, if_neg (by simp [hs]), if_neg (by simp [hs]), h2, h3]
    rcases hn with rfl | rfl <;> rcases hk with rfl | rfl <;> exact key _ (by decide) (by decide) (by decide)
  | byron b => exact absurd ha id

/-- Non-vacuity for C01, C02, C03, C16: a script/key testnet base address and a pointer address are well-formed. -/
example : ShelleyOk (.base TestNet ⟨1, List.replicate 28 7⟩ ⟨0, List.range 28 |>.map UInt8.ofNat⟩) :=
  ⟨Or.inr rfl, ⟨Or.inr rfl, rfl⟩, Or.inl rfl, rfl⟩
example : ShelleyOk (.pointer MainNet ⟨0, List.replicate 28 9⟩ ⟨2498243, 27, 18446744073709551615⟩) :=
  ⟨Or.inl rfl, Or.inl rfl, rfl⟩

/-! ### C02 -/

/-- `String()` of addresses that are not pointer or Byron addresses round-trips. -/
theorem string_roundtrip (strict : Bool) (a : Address) (spare : Bytes) (ha : ShelleyOk a)
    (hp : ∀ n p s, a ≠ .pointer n p s) :
    ∃ s, string a = .ok s ∧ s ≠ [] ∧ NewAddress strict s spare = .ok a := by
  have key : ∀ h : Bytes, LowerHrp h → (hasPrefix h (asc ['a','d','d','r']) || hasPrefix h (asc ['s','t','a','k','e'])) = true →
      string a = orEmpty (Bech32.Encode h (bytes a)) →
      ∃ s, string a = .ok s ∧ s ≠ [] ∧ NewAddress strict s spare = .ok a := by
    intro h hh hpre hs
    obtain ⟨s, h1, h2⟩ := C08_bech32_roundtrip h (bytes a) hh
    obtain ⟨cs, vs, e, _⟩ := Bech32.decode_ok _ _ _ h2
    refine ⟨s, by rw [hs, h1]; rfl, by rw [e]; simp, ?_⟩
    have hpre' : (hasPrefix s (asc ['a','d','d','r']) || hasPrefix s (asc ['s','t','a','k','e'])) = true := by
      rw [Bool.or_eq_true] at hpre ⊢
      have mono : ∀ p : Bytes, hasPrefix h p = true → hasPrefix s p = true := by
        intro p hp
        unfold hasPrefix at hp ⊢
        rw [beq_iff_eq] at hp ⊢
        have hl : p.length ≤ h.length := by
          have := congrArg List.length hp
          rw [List.length_take] at this; omega
        rw [e, List.take_append_of_le_length hl, hp]
      exact hpre.imp (mono _) (mono _)
    unfold NewAddress
    rw [if_pos hpre', h2]
    exact C01_bytes_roundtrip strict a spare ha
  cases a with
  | base n p s =>
    rcases ha.1 with rfl | rfl
    · exact key (asc ['a','d','d','r']) (by unfold LowerHrp; decide) (by decide) rfl
    · exact key (asc ['a','d','d','r','_','t','e','s','t']) (by unfold LowerHrp; decide) (by decide) rfl
  | enterprise n p =>
    rcases ha.1 with rfl | rfl
    · exact key (asc ['a','d','d','r']) (by unfold LowerHrp; decide) (by decide) rfl
    · exact key (asc ['a','d','d','r','_','t','e','s','t']) (by unfold LowerHrp; decide) (by decide) rfl
  | pointer n p s => exact absurd rfl (hp n p s)
  | reward n s =>
    rcases ha.1 with rfl | rfl
    · exact key (asc ['s','t','a','k','e']) (by unfold LowerHrp; decide) (by decide) rfl
    · exact key (asc ['s','t','a','k','e','_','t','e','s','t']) (by unfold LowerHrp; decide) (by decide) rfl
  | byron b => exact absurd ha id

/-- **C02 (partial).** Well-formed base, enterprise and reward addresses survive `String` followed by `NewAddress`.
Missing: pointer addresses, for which the claim is false, see `C02_pointer_string_empty`. -/
theorem C02_string_roundtrip_partial (strict : Bool) (a : Address) (spare : Bytes) (ha : ShelleyOk a)
    (hp : ∀ n p s, a ≠ .pointer n p s) :
    ∃ s, string a = .ok s ∧ s ≠ [] ∧ NewAddress strict s spare = .ok a := string_roundtrip strict a spare ha hp

/-- **C02 is false for pointer addresses**: `String` of every well-formed pointer address is the empty string (the error
of the 5-bit encoder is dropped), and `NewAddress` of the empty string panics. -/
theorem C02_pointer_string_empty (strict : Bool) (n : NetworkInfo) (p : Cred) (s : StakePointer)
    (h : ShelleyOk (.pointer n p s)) (spare : Bytes) :
    string (.pointer n p s) = .ok [] ∧ NewAddress strict [] spare = .panic := by
  constructor
  · have : (bytes (.pointer n p s)).any (fun b => decide (32 ≤ b)) = true := by
      obtain ⟨hn, hk, hp⟩ := h
      rw [List.any_eq_true]
      refine ⟨_, List.mem_cons_self, ?_⟩
      rcases hn with rfl | rfl <;> rcases hk with hk | hk <;> rw [hk] <;> decide
    simp only [string, btcBech32Encode, this, if_true, orEmpty]
  · rfl

/-! ### C03 -/

/-- **C03.** The hexadecimal form (any digit case) of a well-formed Shelley address parses to the address; strings of
odd length or with a character that is not a hexadecimal digit are rejected with an error. -/
theorem C03_hex_roundtrip (strict : Bool) (a : Address) (s spare : Bytes) (ha : ShelleyOk a) (hs : IsHexOf s (bytes a)) :
    NewAddressFromHex strict s spare = .ok a := by
  unfold NewAddressFromHex
  rw [hex_decode_of hs]
  exact C01_bytes_roundtrip strict a spare ha

theorem IsHexOf.good {s b : Bytes} (h : IsHexOf s b) : s.length % 2 = 0 ∧ ∀ c ∈ s, hexVal c ≠ none := by
  induction h with
  | nil => simp
  | cons hc hd _ _ ih =>
    refine ⟨by simp only [List.length_cons]; omega, ?_⟩
    intro c hcm
    rcases List.mem_cons.1 hcm with rfl | hcm
    · rw [hc]; simp
    rcases List.mem_cons.1 hcm with rfl | hcm
    · rw [hd]; simp
    · exact ih.2 c hcm

theorem C03_bad_hex_rejected (strict : Bool) (s spare : Bytes) (hs : s.length % 2 = 1 ∨ ∃ c ∈ s, hexVal c = none) :
    ∃ m, NewAddressFromHex strict s spare = .err m := by
  unfold NewAddressFromHex
  cases h : Hex.decode s with
  | mk b e =>
    cases e with
    | some m => exact ⟨m, rfl⟩
    | none =>
      obtain ⟨g1, g2⟩ := IsHexOf.good (hex_decode_ok s b h)
      rcases hs with hs | ⟨c, hc, hn⟩
      · omega
      · exact absurd hn (g2 c hc)

/-- Non-vacuity for C03: a mixed-case hexadecimal string, and a bad one. -/
example : IsHexOf (asc ['e','F','0','9']) [0xef, 9] := by
  refine .cons (i := 14) (j := 15) (by decide) (by decide) (by decide) (.cons (i := 0) (j := 9) (by decide) (by decide) (by decide) .nil)
example : ∃ c ∈ asc ['0','x'], hexVal c = none := ⟨120, by decide, by decide⟩

/-! ### C14, C15: variable-length naturals -/

/-- **C14.** Decoding an encoded number followed by anything gives back the number and the length of the encoding, and
the encoding is the minimal big-endian base-128 form with continuation bits. -/
theorem C14_varnat_roundtrip (n : UInt64) (rest : Bytes) :
    VariableNatDecode (VariableNatEncode n ++ rest) = .ok (n, (VariableNatEncode n).length) ∧
    MinimalVlq (VariableNatEncode n) ∧ val128 (VariableNatEncode n) = n.toNat := by
  obtain ⟨h1, h2, h3⟩ := encode_spec n
  obtain ⟨v, e, hv⟩ := decode_of (rest := rest) h1
  rw [h2, Nat.mod_eq_of_lt (UInt64.toNat_lt n)] at hv
  rw [UInt64.toNat_inj.1 hv] at e
  exact ⟨e, minimal_of_lead _ h1 h3, h2⟩

/-- **C15 (partial).** Whenever the decoder succeeds, the bytes it reports as consumed are one variable-length natural
and the reported value is the number they denote modulo 2^64; so it is exact whenever that number fits in 64 bits.
Missing: rejection of larger numbers, which is false, see `C15_overflow_accepted`. -/
theorem C15_varnat_exact_partial (raw : Bytes) (v : UInt64) (k : Nat) (h : VariableNatDecode raw = .ok (v, k)) :
    k ≤ raw.length ∧ IsVlq (raw.take k) ∧ v.toNat = val128 (raw.take k) % 2 ^ 64 ∧
    (val128 (raw.take k) < 2 ^ 64 → v.toNat = val128 (raw.take k)) := by
  obtain ⟨b, r, rfl, hb, rfl, hv⟩ := decode_ok h
  refine ⟨by simp, by simpa using hb, by simpa using hv, ?_⟩
  intro hlt
  rw [List.take_left] at hlt ⊢
  rw [hv, Nat.mod_eq_of_lt hlt]

/-- **C15 is false as stated**: ten bytes denoting 2^64 decode to 0 without an error. -/
theorem C15_overflow_accepted :
    ∃ raw, val128 raw = 2 ^ 64 ∧ IsVlq raw ∧ VariableNatDecode raw = .ok (0, raw.length) :=
  ⟨[0x82, 0x80, 0x80, 0x80, 0x80, 0x80, 0x80, 0x80, 0x80, 0x00], by decide,
    ⟨[0x82, 0x80, 0x80, 0x80, 0x80, 0x80, 0x80, 0x80, 0x80], 0, rfl, by decide, by decide⟩, by decide⟩

/-- Non-vacuity for C15: a two-byte number with bytes after it. -/
example : VariableNatDecode [0x81, 0x01, 0xff] = .ok (129, 2) := by decide

/-! ### C12 -/

/-- The five address types. -/
inductive Kind where
  | base | pointer | enterprise | reward | byron
  deriving DecidableEq

def kindOfAddress : Address → Kind
  | .base .. => .base
  | .pointer .. => .pointer
  | .enterprise .. => .enterprise
  | .reward .. => .reward
  | .byron .. => .byron

/-- The CIP-19 table of header types. -/
def typeTable : Nat → Option Kind
  | 0 | 1 | 2 | 3 => some .base
  | 4 | 5 => some .pointer
  | 6 | 7 => some .enterprise
  | 8 => some .byron
  | 14 | 15 => some .reward
  | _ => none

/-- Bit `i` of the header says "script" for the credential. -/
def kindsMatch (h : Nat) : Address → Prop
  | .base _ p s => (p.kind = if h.testBit 4 then 1 else 0) ∧ (s.kind = if h.testBit 5 then 1 else 0)
  | .pointer _ p _ => p.kind = if h.testBit 4 then 1 else 0
  | .enterprise _ p => p.kind = if h.testBit 4 then 1 else 0
  | .reward _ s => s.kind = if h.testBit 4 then 1 else 0
  | .byron _ => True

theorem kindOf_testBit (h : UInt8) (i : Nat) : kindOf h i = if h.toNat.testBit i then 1 else 0 := by
  unfold kindOf
  rw [Nat.testBit_eq_decide_div_mod_eq]
  rcases Nat.mod_two_eq_zero_or_one (h.toNat / 2 ^ i) with e | e <;> simp [e]

theorem typeTable_base {n : Nat} (h : n ≤ 3) : typeTable n = some .base := by
  match n, h with
  | 0, _ | 1, _ | 2, _ | 3, _ => rfl

/-- Every nibble is in exactly one of the six classes. -/
theorem nibble_cases (h : UInt8) : h.toNat / 16 ≤ 3 ∨ (h.toNat / 16 = 4 ∨ h.toNat / 16 = 5) ∨ (h.toNat / 16 = 6 ∨ h.toNat / 16 = 7) ∨
    h.toNat / 16 = 8 ∨ (9 ≤ h.toNat / 16 ∧ h.toNat / 16 ≤ 13) ∨ (h.toNat / 16 = 14 ∨ h.toNat / 16 = 15) := by
  have := UInt8.toNat_lt h
  omega

/-- **C12.** The type of a parsed address and the kinds of its credentials are those of the CIP-19 header table; header
types 9 to 13 are rejected with an error. -/
theorem C12_header_decides_type (strict : Bool) (h : UInt8) (t spare : Bytes) :
    (∀ a, NewAddressFromBytes strict (h :: t) spare = .ok a →
      typeTable (h.toNat / 16) = some (kindOfAddress a) ∧ kindsMatch h.toNat a) ∧
    (typeTable (h.toNat / 16) = none → ∃ m, NewAddressFromBytes strict (h :: t) spare = .err m) := by
  rcases nibble_cases h with hy | hy | hy | hy | hy | hy
  · refine ⟨?_, by rw [typeTable_base hy]; simp⟩
    intro a ha
    rw [parse_base _ _ _ _ hy] at ha
    split at ha
    · cases ha
      exact ⟨typeTable_base hy, kindOf_testBit h 4, kindOf_testBit h 5⟩
    · cases ha
  · refine ⟨?_, by rcases hy with e | e <;> rw [e] <;> simp [typeTable]⟩
    intro a ha
    obtain ⟨p, b1, b2, b3, s, x, c, _, _, _, _, _, _, _, _, rfl⟩ := parse_pointer_ok strict h t spare a hy ha
    exact ⟨by rcases hy with e | e <;> rw [e] <;> rfl, kindOf_testBit h 4⟩
  · refine ⟨?_, by rcases hy with e | e <;> rw [e] <;> simp [typeTable]⟩
    intro a ha
    rw [parse_enterprise _ _ _ _ hy] at ha
    split at ha
    · cases ha
    split at ha
    · cases ha
    cases ha
    exact ⟨by rcases hy with e | e <;> rw [e] <;> rfl, kindOf_testBit h 4⟩
  · refine ⟨?_, by rw [hy]; simp [typeTable]⟩
    intro a ha
    rw [parse_byron _ _ _ _ hy] at ha
    obtain ⟨b, _, e⟩ := bind_ok ha
    cases e
    exact ⟨by rw [hy]; rfl, trivial⟩
  · rw [parse_unknown _ _ _ _ hy]
    exact ⟨fun a ha => (nomatch ha), fun _ => ⟨_, rfl⟩⟩
  · refine ⟨?_, by rcases hy with e | e <;> rw [e] <;> simp [typeTable]⟩
    intro a ha
    rw [parse_reward _ _ _ _ hy] at ha
    split at ha
    · cases ha
    split at ha
    · cases ha
    cases ha
    exact ⟨by rcases hy with e | e <;> rw [e] <;> rfl, kindOf_testBit h 4⟩

/-- Non-vacuity for C12: a stake-script reward address parses; type 9 is not in the table. -/
example : ∃ a, NewAddressFromBytes false (0xf1 :: List.replicate 28 5) [] = .ok a := ⟨_, rfl⟩
example : typeTable 9 = none := rfl

/-! ### C05: parsing is faithful -/

/-- **C05 (partial).** A successfully parsed Shelley address serialises back to the parsed bytes, provided the network id
is 0 or 1, a base address has exactly 57 bytes, and the three numbers of a pointer address are minimal and below 2^64.
Missing: the claim without the provisos is false, see `C05_base_not_faithful`, `C05_network_not_faithful` and
`C05_pointer_not_faithful`. -/
theorem C05_parse_faithful_partial (strict : Bool) (h : UInt8) (t spare : Bytes) (a : Address)
    (ha : NewAddressFromBytes strict (h :: t) spare = .ok a)
    (hnet : h.toNat % 16 ≤ 1)
    (hb : kindOfAddress a = .base → (h :: t).length = 57)
    (hp : kindOfAddress a = .pointer → ∃ p b1 b2 b3, t = p ++ b1 ++ b2 ++ b3 ∧ p.length = 28 ∧
      (∀ b, b = b1 ∨ b = b2 ∨ b = b3 → MinimalVlq b ∧ val128 b < 2 ^ 64))
    (hby : kindOfAddress a ≠ .byron) : bytes a = h :: t := by
  have hlt := UInt8.toNat_lt h
  rcases nibble_cases h with hy | hy | hy | hy | hy | hy
  · rw [parse_base _ _ _ _ hy] at ha
    split at ha
    · cases ha
      have hl := hb rfl
      have ht : t.length = 56 := by simpa using hl
      have d1 : ((h :: t ++ spare).drop 1).take 28 = t.take 28 := by
        simp only [List.cons_append, List.drop_succ_cons, List.drop_zero]
        rw [List.take_append_of_le_length (by omega)]
      have d2 : ((h :: t ++ spare).drop 29).take 28 = t.drop 28 := by
        simp only [List.cons_append, List.drop_succ_cons]
        rw [List.drop_append_of_le_length (by omega), List.take_left' (by rw [List.length_drop]; omega)]
      simp only [bytes]
      rw [d1, d2, copyZ_eq _ _ (by rw [List.length_take]; omega), copyZ_eq _ _ (by rw [List.length_drop]; omega),
        List.take_append_drop]
      congr 1
      revert hy hnet
      have : ∀ h : UInt8, h.toNat % 16 ≤ 1 → h.toNat / 16 ≤ 3 →
        kindOf h 4 <<< 4 ||| kindOf h 5 <<< 5 ||| (networks (h &&& 15)).networkId &&& 15 = h := forall_byte (by decide +kernel)
      intro h1 h2; exact this h h1 h2
    · cases ha
  · obtain ⟨p, b1, b2, b3, s, x, c, ht, hpl, v1, v2, v3, w1, w2, w3, rfl⟩ := parse_pointer_ok strict h t spare a hy ha
    obtain ⟨p', c1, c2, c3, ht', hpl', hmin⟩ := hp rfl
    -- the split of `t` is the same
    have vlq_split : ∀ (b b' r r' : Bytes), IsVlq b → IsVlq b' → b ++ r = b' ++ r' → b = b' ∧ r = r' := by
      intro b b' r r' hb hb' e
      obtain ⟨v, e1, _⟩ := decode_of (rest := r) hb
      obtain ⟨v', e2, _⟩ := decode_of (rest := r') hb'
      rw [e, e2] at e1
      injection e1 with e1
      injection e1 with _ e1
      exact List.append_inj e e1.symm
    have hpp : p = p' ∧ b1 ++ (b2 ++ b3) = c1 ++ (c2 ++ c3) := by
      rw [ht] at ht'
      simp only [List.append_assoc] at ht'
      exact List.append_inj ht' (by omega)
    obtain ⟨rfl, e⟩ := hpp
    obtain ⟨rfl, e'⟩ := vlq_split _ _ _ _ v1 (hmin c1 (Or.inl rfl)).1.1 e
    obtain ⟨rfl, e''⟩ := vlq_split _ _ _ _ v2 (hmin c2 (Or.inr (Or.inl rfl))).1.1 e'
    subst e''
    obtain ⟨m1, l1⟩ := hmin b1 (Or.inl rfl)
    obtain ⟨m2, l2⟩ := hmin b2 (Or.inr (Or.inl rfl))
    obtain ⟨m3, l3⟩ := hmin b3 (Or.inr (Or.inr rfl))
    rw [Nat.mod_eq_of_lt l1] at w1
    rw [Nat.mod_eq_of_lt l2] at w2
    rw [Nat.mod_eq_of_lt l3] at w3
    simp only [bytes]
    rw [encode_of_minimal _ m1 _ w1, encode_of_minimal _ m2 _ w2, encode_of_minimal _ m3 _ w3, ht, List.cons_append,
      List.cons_append, List.cons_append]
    congr 1
    revert hy hnet
    have : ∀ h : UInt8, h.toNat % 16 ≤ 1 → h.toNat / 16 = 4 ∨ h.toNat / 16 = 5 →
      (64 : UInt8) ||| kindOf h 4 <<< 4 ||| (networks (h &&& 15)).networkId &&& 15 = h := forall_byte (by decide +kernel)
    intro h1 h2; exact this h h1 h2
  · rw [parse_enterprise _ _ _ _ hy] at ha
    split at ha
    · cases ha
    split at ha
    · cases ha
    rename_i l1 l2
    cases ha
    simp only [List.length_cons] at l1 l2
    simp only [bytes]
    rw [copyZ_eq _ _ (by omega)]
    congr 1
    revert hy hnet
    have : ∀ h : UInt8, h.toNat % 16 ≤ 1 → h.toNat / 16 = 6 ∨ h.toNat / 16 = 7 →
      (96 : UInt8) ||| kindOf h 4 <<< 4 ||| (networks (h &&& 15)).networkId &&& 15 = h := forall_byte (by decide +kernel)
    intro h1 h2; exact this h h1 h2
  · rw [parse_byron _ _ _ _ hy] at ha
    obtain ⟨b, _, e⟩ := bind_ok ha
    cases e
    exact absurd rfl hby
  · rw [parse_unknown _ _ _ _ hy] at ha; cases ha
  · rw [parse_reward _ _ _ _ hy] at ha
    split at ha
    · cases ha
    split at ha
    · cases ha
    rename_i l1 l2
    cases ha
    simp only [List.length_cons] at l1 l2
    simp only [bytes]
    rw [copyZ_eq _ _ (by omega)]
    congr 1
    revert hy hnet
    have : ∀ h : UInt8, h.toNat % 16 ≤ 1 → h.toNat / 16 = 14 ∨ h.toNat / 16 = 15 →
      (224 : UInt8) ||| kindOf h 4 <<< 4 ||| (networks (h &&& 15)).networkId &&& 15 = h := forall_byte (by decide +kernel)
    intro h1 h2; exact this h h1 h2

/-- **C05 is false**: every byte string of at least 58 bytes with a base-address header parses, but cannot be
serialised back: the surplus is dropped silently. -/
theorem C05_base_not_faithful (strict : Bool) (h : UInt8) (t spare : Bytes) (hy : h.toNat / 16 ≤ 3) (hl : 57 ≤ t.length) :
    ∃ a, NewAddressFromBytes strict (h :: t) spare = .ok a ∧ bytes a ≠ h :: t := by
  refine ⟨_, by rw [parse_base _ _ _ _ hy, if_pos (by simp only [List.length_cons]; omega)], ?_⟩
  intro e
  have := congrArg List.length e
  simp [bytes, copyZ_length] at this
  omega

/-- **C05 is false** also for 29-byte enterprise addresses with a network id of 2 or more: the id is replaced by 0. -/
theorem C05_network_not_faithful (strict : Bool) (h : UInt8) (t spare : Bytes) (hy : h.toNat / 16 = 6 ∨ h.toNat / 16 = 7)
    (hl : t.length = 28) (hn : 2 ≤ h.toNat % 16) :
    ∃ a, NewAddressFromBytes strict (h :: t) spare = .ok a ∧ bytes a ≠ h :: t := by
  refine ⟨_, by rw [parse_enterprise _ _ _ _ hy, if_neg (by simp [hl]), if_neg (by simp [hl])], ?_⟩
  intro e
  simp only [bytes, List.cons.injEq] at e
  have : ∀ h : UInt8, 2 ≤ h.toNat % 16 →
    ¬ ((96 : UInt8) ||| kindOf h 4 <<< 4 ||| (networks (h &&& 15)).networkId &&& 15 = h) := forall_byte (by decide +kernel)
  exact this h hn e.1

/-- **C05 is false** for pointer addresses: a slot written with a superfluous leading zero digit is accepted and
serialised without it. -/
theorem C05_pointer_not_faithful (strict : Bool) (spare : Bytes) :
    ∃ data a, NewAddressFromBytes strict data spare = .ok a ∧ kindOfAddress a = .pointer ∧ bytes a ≠ data := by
  obtain ⟨s, x, c, hs, hx, hc, e⟩ := parse_pointer_of strict 0x41 (List.replicate 28 1) [0x80, 0x05] [1] [2] spare
    (by decide) (by decide) ⟨[0x80], 5, rfl, by decide, by decide⟩ ⟨[], 1, rfl, by decide, by decide⟩
    ⟨[], 2, rfl, by decide, by decide⟩
  refine ⟨_, _, e, rfl, ?_⟩
  have hs : s = 5 := UInt64.toNat_inj.1 (hs.trans (by decide))
  have hx : x = 1 := UInt64.toNat_inj.1 (hx.trans (by decide))
  have hc : c = 2 := UInt64.toNat_inj.1 (hc.trans (by decide))
  subst hs; subst hx; subst hc
  decide

/-- Non-vacuity for C05: a base, a pointer and an enterprise address meet every hypothesis of the positive part (the pointer with the three numbers
5, 300 and 0), and a base address with one byte too many meets those of the first counterexample. -/
example : (∃ a, NewAddressFromBytes true (0x11 :: List.replicate 56 0xab) [] = .ok a ∧ kindOfAddress a = .base) ∧
    (∃ a, NewAddressFromBytes true (0x70 :: List.replicate 28 0xab) [] = .ok a ∧ kindOfAddress a = .enterprise) ∧
    (∃ a, NewAddressFromBytes true (0x41 :: (List.replicate 28 0xab ++ [5] ++ [0x82, 0x2c] ++ [0])) [] = .ok a ∧ kindOfAddress a = .pointer) ∧
    (∀ b, b = [5] ∨ b = [0x82, 0x2c] ∨ b = [(0 : UInt8)] → MinimalVlq b ∧ val128 b < 2 ^ 64) ∧ 57 ≤ (List.replicate 57 (0xab : UInt8)).length := by
  refine ⟨⟨_, rfl, rfl⟩, ⟨_, rfl, rfl⟩, ⟨_, rfl, rfl⟩, ?_, by decide⟩
  rintro b (rfl | rfl | rfl)
  · exact ⟨(C14_varnat_roundtrip 5 []).2.1, by decide⟩
  · exact ⟨(C14_varnat_roundtrip 300 []).2.1, by decide⟩
  · exact ⟨(C14_varnat_roundtrip 0 []).2.1, by decide⟩

/-! ### C06: parsing is total -/

/-- A Go slice with these contents and spare bytes makes `NewAddressFromBytes` panic. -/
def PanicInput (data spare : Bytes) : Prop :=
  match data with
  | [] => True
  | h :: t => h.toNat / 16 ≤ 3 ∧ (h :: t).length + spare.length < 57

theorem byron_not_panic (strict : Bool) (data : Bytes) : Byron.unmarshal strict data ≠ .panic := by
  have hu : ∀ m x, Byron.toUint m x ≠ .panic := by
    intro m x
    induction x using Byron.toUint.induct m <;> simp_all [Byron.toUint]
    all_goals (try split) <;> simp_all
  have hus : ∀ xs, Byron.toUint8s xs ≠ .panic := by
    intro xs
    induction xs with
    | nil => simp [Byron.toUint8s]
    | cons x xs ih =>
      intro h
      rcases bind_panic h with h | ⟨a, _, h⟩
      · exact hu _ _ h
      rcases bind_panic h with h | ⟨a, _, h⟩
      · exact ih h
      · cases h
  have hb : ∀ x, Byron.toBytes x ≠ .panic := by
    intro x
    induction x using Byron.toBytes.induct <;> simp_all [Byron.toBytes]
    all_goals (try split) <;> simp_all
  have hap : ∀ kvs a, Byron.toAttrsPairs kvs a ≠ .panic := by
    intro kvs a
    induction kvs, a using Byron.toAttrsPairs.induct with
    | case1 v rest a ih =>
      simp only [Byron.toAttrsPairs]
      intro h
      rcases bind_panic h with h | ⟨p, _, h⟩
      · exact hb _ h
      · exact ih p h
    | case2 v rest a ih =>
      simp only [Byron.toAttrsPairs]
      intro h
      rcases bind_panic h with h | ⟨p, _, h⟩
      · exact hu _ _ h
      · exact ih p h
    | case3 v rest a n h1 h2 ih => simp_all [Byron.toAttrsPairs]
    | case4 v rest a n ih => simpa [Byron.toAttrsPairs] using ih
    | case5 v rest a n ih => simpa [Byron.toAttrsPairs] using ih
    | case6 => simp_all [Byron.toAttrsPairs]
    | case7 => simp_all [Byron.toAttrsPairs]
  have ha : ∀ x, Byron.toAttrs x ≠ .panic := by
    intro x
    induction x using Byron.toAttrs.induct <;> simp_all [Byron.toAttrs]
    all_goals (try split) <;> simp_all
  have hraw : ∀ raw, Byron.decodeRaw strict raw ≠ .panic := by
    intro raw
    unfold Byron.decodeRaw
    split
    · simp
    split
    · simp
    split
    · intro h
      rcases bind_panic h with h | ⟨_, _, h⟩
      · exact hb _ h
      rcases bind_panic h with h | ⟨_, _, h⟩
      · exact ha _ h
      rcases bind_panic h with h | ⟨_, _, h⟩
      · exact hu _ _ h
      cases h
    · split <;> simp
    · simp
  unfold Byron.unmarshal
  split
  · simp
  split
  · simp
  unfold Byron.ofItem
  split
  · intro h
    rcases bind_panic h with h | ⟨_, _, h⟩
    · exact hu _ _ h
    split at h
    · split at h
      · cases h
      split at h
      · cases h
      rcases bind_panic h with h | ⟨_, _, h⟩
      · exact hraw _ h
      split at h <;> cases h
    · cases h
    · split at h <;> cases h
    · cases h
  · simp

/-- **C06 (partial).** Exact description of the inputs on which parsing panics: the empty slice, and a base-address header
with fewer than 57 bytes between the start of the slice and its capacity. On all other inputs an address or an error
is returned. Missing: the claim "never panics" itself, which is false, see `C06_parse_panics`. -/
theorem C06_panics_iff_partial (strict : Bool) (data spare : Bytes) :
    NewAddressFromBytes strict data spare = .panic ↔ PanicInput data spare := by
  cases data with
  | nil => exact ⟨fun _ => trivial, fun _ => rfl⟩
  | cons h t =>
    unfold PanicInput
    rcases nibble_cases h with hy | hy | hy | hy | hy | hy
    · rw [parse_base _ _ _ _ hy]
      split
      · refine ⟨fun h => (nomatch h), fun h => ?_⟩
        omega
      · exact ⟨fun _ => ⟨hy, by omega⟩, fun _ => rfl⟩
    · exact ⟨fun hp => absurd hp (parse_pointer_not_panic strict h t spare hy), fun hp => by omega⟩
    · rw [parse_enterprise _ _ _ _ hy]
      refine ⟨fun hp => ?_, fun hp => by omega⟩
      split at hp
      · cases hp
      · split at hp <;> cases hp
    · rw [parse_byron _ _ _ _ hy]
      refine ⟨fun hp => ?_, fun hp => by omega⟩
      rcases bind_panic hp with hp | ⟨b, _, hp⟩
      · exact absurd hp (byron_not_panic _ _)
      · cases hp
    · rw [parse_unknown _ _ _ _ hy]
      exact ⟨fun hp => (nomatch hp), fun hp => by omega⟩
    · rw [parse_reward _ _ _ _ hy]
      refine ⟨fun hp => ?_, fun hp => by omega⟩
      split at hp
      · cases hp
      · split at hp <;> cases hp

/-- The same for the hexadecimal entry point. -/
theorem C06_hex_panics_iff_partial (strict : Bool) (s spare : Bytes) :
    NewAddressFromHex strict s spare = .panic ↔ ∃ data, IsHexOf s data ∧ PanicInput data spare := by
  unfold NewAddressFromHex
  cases h : Hex.decode s with
  | mk b e =>
    cases e with
    | some m =>
      refine ⟨fun h => (nomatch h), ?_⟩
      rintro ⟨d, hd, _⟩
      rw [hex_decode_of hd] at h; cases h
    | none =>
      simp only
      rw [C06_panics_iff_partial]
      refine ⟨fun hp => ⟨b, hex_decode_ok s b h, hp⟩, ?_⟩
      rintro ⟨d, hd, hp⟩
      rw [hex_decode_of hd] at h; cases h; exact hp

/-- **C06 is false**: the empty slice, a two-byte "base address" in a slice without spare capacity, the empty hexadecimal
string, a string that is not base58, and a bech32 string with a correct checksum but no data all panic. -/
theorem C06_parse_panics (strict : Bool) (spare : Bytes) :
    NewAddressFromBytes strict [] spare = .panic ∧
    NewAddressFromBytes strict [0x01, 0x02] [] = .panic ∧
    NewAddressFromHex strict [] spare = .panic ∧
    NewAddress strict (asc ['0', 'O', 'I', 'l']) spare = .panic ∧
    (∃ s, NewAddress strict s spare = .panic ∧ Bech32.Decode s = .ok (asc ['a','d','d','r'], [])) := by
  refine ⟨rfl, by rw [C06_panics_iff_partial]; unfold PanicInput; decide, rfl, ?_, ?_⟩
  · have : NewAddress strict (asc ['0', 'O', 'I', 'l']) spare = NewAddressFromBytes strict [] spare := by
      unfold NewAddress
      rw [if_neg (by decide)]
      have : Base58.decode (asc ['0', 'O', 'I', 'l']) = [] := by decide
      rw [this]
    rw [this]; rfl
  · obtain ⟨s, h1, h2⟩ := C08_bech32_roundtrip (asc ['a','d','d','r']) [] (by unfold LowerHrp; decide)
    obtain ⟨cs, vs, e, _⟩ := Bech32.decode_ok _ _ _ h2
    refine ⟨s, ?_, h2⟩
    unfold NewAddress
    have hp : (hasPrefix s (asc ['a','d','d','r']) || hasPrefix s (asc ['s','t','a','k','e'])) = true := by
      rw [e]; rfl
    rw [if_pos hp, h2]
    rfl

/-! ### C07: network -/

/-- **C07 (partial).** A parsed Shelley address whose header has network nibble 1 (0) reports MainNet (TestNet) and its
human-readable prefix is the one of that network. Missing: other nibbles, for which the claim is false, see
`C07_unknown_network_reported_as_testnet_id`. -/
theorem C07_network_preserved_partial (strict : Bool) (h : UInt8) (t spare : Bytes) (a : Address)
    (ha : NewAddressFromBytes strict (h :: t) spare = .ok a) (hby : kindOfAddress a ≠ .byron) :
    (h.toNat % 16 = 1 → networkInfo a = MainNet ∧ (pfx a = asc ['a','d','d','r'] ∨ pfx a = asc ['s','t','a','k','e'])) ∧
    (h.toNat % 16 = 0 → networkInfo a = TestNet ∧
      (pfx a = asc ['a','d','d','r','_','t','e','s','t'] ∨ pfx a = asc ['s','t','a','k','e','_','t','e','s','t'])) := by
  have n1 : h.toNat % 16 = 1 → networks (h &&& 0x0F) = MainNet := by
    intro e
    have : h &&& 0x0F = 1 := UInt8.toNat_inj.1 (by rw [nib_lo, e]; rfl)
    rw [this]; rfl
  have n0 : h.toNat % 16 = 0 → networks (h &&& 0x0F) = TestNet := by
    intro e
    have : h &&& 0x0F = 0 := UInt8.toNat_inj.1 (by rw [nib_lo, e]; rfl)
    rw [this]; rfl
  rcases nibble_cases h with hy | hy | hy | hy | hy | hy
  · rw [parse_base _ _ _ _ hy] at ha
    split at ha
    · cases ha
      refine ⟨fun e => ?_, fun e => ?_⟩
      · simp only [networkInfo, pfx, n1 e]; decide
      · simp only [networkInfo, pfx, n0 e]; decide
    · cases ha
  · obtain ⟨p, b1, b2, b3, s, x, c, _, _, _, _, _, _, _, _, rfl⟩ := parse_pointer_ok strict h t spare a hy ha
    refine ⟨fun e => ?_, fun e => ?_⟩
    · simp only [networkInfo, pfx, n1 e]; decide
    · simp only [networkInfo, pfx, n0 e]; decide
  · rw [parse_enterprise _ _ _ _ hy] at ha
    split at ha
    · cases ha
    split at ha
    · cases ha
    cases ha
    refine ⟨fun e => ?_, fun e => ?_⟩
    · simp only [networkInfo, pfx, n1 e]; decide
    · simp only [networkInfo, pfx, n0 e]; decide
  · rw [parse_byron _ _ _ _ hy] at ha
    obtain ⟨b, _, e⟩ := bind_ok ha
    cases e
    exact absurd rfl hby
  · rw [parse_unknown _ _ _ _ hy] at ha; cases ha
  · rw [parse_reward _ _ _ _ hy] at ha
    split at ha
    · cases ha
    split at ha
    · cases ha
    cases ha
    refine ⟨fun e => ?_, fun e => ?_⟩
    · simp only [networkInfo, pfx, n1 e]; decide
    · simp only [networkInfo, pfx, n0 e]; decide

/-- **C07 is false** for network nibbles 2 to 15: the parsed address reports network id 0 (the id of TestNet), and an
enterprise address prints with the testnet prefix. -/
theorem C07_unknown_network_reported_as_testnet_id (strict : Bool) (h : UInt8) (t spare : Bytes)
    (hn : 2 ≤ h.toNat % 16) (hy : h.toNat / 16 = 6 ∨ h.toNat / 16 = 7) (hl : t.length = 28) :
    ∃ a, NewAddressFromBytes strict (h :: t) spare = .ok a ∧ (networkInfo a).networkId = TestNet.networkId ∧
      pfx a = asc ['a','d','d','r','_','t','e','s','t'] := by
  refine ⟨_, by rw [parse_enterprise _ _ _ _ hy, if_neg (by simp [hl]), if_neg (by simp [hl])], ?_⟩
  have : ∀ h : UInt8, 2 ≤ h.toNat % 16 → networks (h &&& 15) = ⟨0, 0⟩ := forall_byte (by decide +kernel)
  simp only [networkInfo, pfx, this h hn]
  decide

/-- Non-vacuity for C07: addresses of both networks, and one whose header names network 5. -/
example : (∃ a, NewAddressFromBytes true (0x61 :: List.replicate 28 0xab) [] = .ok a ∧ kindOfAddress a ≠ .byron ∧ networkInfo a = MainNet) ∧
    (∃ a, NewAddressFromBytes true (0xe0 :: List.replicate 28 0xab) [] = .ok a ∧ kindOfAddress a ≠ .byron ∧ networkInfo a = TestNet) ∧
    (∃ a, NewAddressFromBytes true (0x65 :: List.replicate 28 0xab) [] = .ok a ∧ networkInfo a ≠ MainNet ∧ networkInfo a ≠ TestNet) := by
  refine ⟨⟨_, rfl, by decide, by decide⟩, ⟨_, rfl, by decide, by decide⟩, ⟨_, rfl, by decide, by decide⟩⟩

/-! ### C13 -/

/-- **C13.** Converting a base address keeps the network and the credential; the serialised payload is bytes 1..28
(payment), respectively 29..56 (stake), of the serialised base address. -/
theorem C13_conversions_keep_credentials (n : NetworkInfo) (p s : Cred) :
    networkInfo (toEnterprise n p s) = n ∧ networkInfo (toReward n p s) = n ∧
    toEnterprise n p s = .enterprise n p ∧ toReward n p s = .reward n s ∧
    (bytes (toEnterprise n p s)).drop 1 = ((bytes (.base n p s)).drop 1).take 28 ∧
    (bytes (toReward n p s)).drop 1 = ((bytes (.base n p s)).drop 29).take 28 ∧
    (bytes (.base n p s)).length = 57 := by
  refine ⟨rfl, rfl, rfl, rfl, ?_, ?_, ?_⟩
  · simp only [toEnterprise, bytes, List.drop_succ_cons, List.drop_zero]
    rw [List.take_left' (copyZ_length _ _)]
  · simp only [toReward, bytes, List.drop_succ_cons, List.drop_zero]
    rw [List.drop_left' (copyZ_length _ _), List.take_of_length_le (by rw [copyZ_length]; omega)]
  · simp [bytes, copyZ_length]

/-! ### C16 -/

/-- **C16.** Well-formed Shelley addresses with equal bytes are equal. -/
theorem C16_bytes_injective (a b : Address) (ha : ShelleyOk a) (hb : ShelleyOk b) (h : bytes a = bytes b) : a = b := by
  have h1 := C01_bytes_roundtrip false a [] ha
  rw [h, C01_bytes_roundtrip false b [] hb] at h1
  cases h1; rfl

/-- **C16.** Well-formed base, enterprise and reward addresses with equal strings are equal. -/
theorem C16_string_injective (a b : Address) (ha : ShelleyOk a) (hb : ShelleyOk b)
    (hpa : ∀ n p s, a ≠ .pointer n p s) (hpb : ∀ n p s, b ≠ .pointer n p s) (h : string a = string b) : a = b := by
  obtain ⟨s, h1, _, h2⟩ := string_roundtrip false a [] ha hpa
  obtain ⟨s', h1', _, h2'⟩ := string_roundtrip false b [] hb hpb
  rw [h, h1'] at h1
  cases h1
  rw [h2] at h2'
  cases h2'; rfl

/-! ### C50 -/

/-- **C50.** Lengths and header bytes, whatever the length of the payload slices. -/
theorem C50_layout (n : NetworkInfo) (p s : Cred) (hp : p.kind = 0 ∨ p.kind = 1) (hs : s.kind = 0 ∨ s.kind = 1)
    (hn : n.networkId.toNat < 16) :
    ((bytes (.base n p s)).length = 57 ∧
      ∃ t, bytes (.base n p s) = UInt8.ofNat ((p.kind.toNat + 2 * s.kind.toNat) * 16 + n.networkId.toNat) :: t) ∧
    ((bytes (.enterprise n p)).length = 29 ∧
      ∃ t, bytes (.enterprise n p) = UInt8.ofNat ((6 + p.kind.toNat) * 16 + n.networkId.toNat) :: t) ∧
    ((bytes (.reward n s)).length = 29 ∧
      ∃ t, bytes (.reward n s) = UInt8.ofNat ((14 + s.kind.toNat) * 16 + n.networkId.toNat) :: t) ∧
    (∀ sp : StakePointer, p.payload.length = 28 →
      (bytes (.pointer n p sp)).length = 1 + 28 + (VariableNatEncode sp.slot).length +
        (VariableNatEncode sp.txIndex).length + (VariableNatEncode sp.certIndex).length ∧
      ∃ t, bytes (.pointer n p sp) = UInt8.ofNat ((4 + p.kind.toNat) * 16 + n.networkId.toNat) :: t) := by
  have key : ∀ m : UInt8, m.toNat < 16 → ∀ i j : Fin 2,
      ((UInt8.ofNat i.val <<< 4) ||| (UInt8.ofNat j.val <<< 5) ||| (m &&& 0xf) = UInt8.ofNat ((i.val + 2 * j.val) * 16 + m.toNat)) ∧
      ((0x60 : UInt8) ||| (UInt8.ofNat i.val <<< 4) ||| (m &&& 0xf) = UInt8.ofNat ((6 + i.val) * 16 + m.toNat)) ∧
      ((0xe0 : UInt8) ||| (UInt8.ofNat j.val <<< 4) ||| (m &&& 0xf) = UInt8.ofNat ((14 + j.val) * 16 + m.toNat)) ∧
      ((0x40 : UInt8) ||| (UInt8.ofNat i.val <<< 4) ||| (m &&& 0xf) = UInt8.ofNat ((4 + i.val) * 16 + m.toNat)) :=
    forall_byte (by decide +kernel)
  have hk : ∀ k : UInt8, k = 0 ∨ k = 1 → k.toNat < 2 := by rintro k (rfl | rfl) <;> decide
  have := key n.networkId hn ⟨p.kind.toNat, hk _ hp⟩ ⟨s.kind.toNat, hk _ hs⟩
  simp only [UInt8.ofNat_toNat] at this
  obtain ⟨k1, k2, k3, k4⟩ := this
  refine ⟨⟨by simp [bytes, copyZ_length], ?_⟩, ⟨by simp [bytes, copyZ_length], ?_⟩, ⟨by simp [bytes, copyZ_length], ?_⟩,
    fun sp hl => ⟨?_, ?_⟩⟩
  · exact ⟨_, by rw [← k1]; rfl⟩
  · exact ⟨_, by rw [← k2]; rfl⟩
  · exact ⟨_, by rw [← k3]; rfl⟩
  · simp only [bytes, List.length_append, List.length_cons, hl]
  · exact ⟨_, by rw [← k4]; rfl⟩

/-- Non-vacuity for C50: a malformed credential (3 bytes) is allowed. -/
example : (bytes (.enterprise MainNet ⟨1, [1, 2, 3]⟩)).length = 29 := by decide

end Cardano.Props
