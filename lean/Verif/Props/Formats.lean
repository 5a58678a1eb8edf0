import Verif.Props.AddressString
import Verif.Props.Byron
/-!
# Properties C65 - C68: the exact text and byte formats

The earlier round-trip theorems hold for any consistent alphabet or constant; the theorems here pin the formats themselves.
-/
set_option autoImplicit false

namespace Cardano.Props
open Cardano.Spec Cardano.Bech32

/-! ## C67 Bech32 text -/

/-- BIP-173: the character for a 5-bit value. -/
def bip173Char (v : UInt8) : UInt8 := (asc
  ['q','p','z','r','y','9','x','8','g','f','2','t','v','d','w','0','s','3','j','n','5','4','k','h','c','e','6','m','u','a','7','l']).getD v.toNat 0

/-- BIP-173: `s` is the Bech32 string with human-readable part `h` (lower case) carrying the bytes `d`: `h`, the digit one, the symbols
spelling the bits of `d` padded with fewer than five zero bits, and six symbols that make the remainder modulo the generator equal to 1. -/
def IsBech32 (h d s : Bytes) : Prop :=
  ∃ (body chk : Bytes) (p : Nat), (∀ v ∈ body ++ chk, v.toNat < 32) ∧ chk.length = 6 ∧ p < 5 ∧
    bitStream 5 body = bitStream 8 d ++ List.replicate p false ∧
    (∀ i, gRem ([1] ++ h.map (fun c => c.toNat / 32) ++ [0] ++ h.map (fun c => c.toNat % 32) ++ (body ++ chk).map UInt8.toNat) i
        = if i = 5 then 1 else 0) ∧
    s = h ++ 49 :: (body ++ chk).map bip173Char

theorem chr_bip (v : UInt8) (h : v.toNat < 32) : chr v = bip173Char v := by
  revert v
  exact forall_byte (by decide +kernel)

theorem chr_low (v : UInt8) (h : v.toNat < 32) : ¬ (65 ≤ (chr v).toNat ∧ (chr v).toNat ≤ 90) ∧ chr v ≠ 49 := by
  revert v
  exact forall_byte (by decide +kernel)

theorem map_chr_bip (vs : Bytes) (h : ∀ v ∈ vs, v.toNat < 32) : vs.map chr = vs.map bip173Char :=
  List.map_congr_left fun v hv => chr_bip v (h v hv)

theorem toLower_of_low (s : Bytes) (hlow : ∀ c ∈ s, ¬ (65 ≤ c.toNat ∧ c.toNat ≤ 90)) : toLower s = s := by
  rw [toLower_eq_self]
  intro c hc
  unfold lower8
  rw [if_neg]
  intro ⟨h1, h2⟩
  exact hlow c hc ⟨UInt8.le_iff_toNat_le.1 h1, UInt8.le_iff_toNat_le.1 h2⟩

/-- **C67 (decoding).** A string without upper-case letters decodes to a human-readable part and bytes exactly when it is the BIP-173 string
for them and the part is legal. -/
theorem C67_decode_iff_bip173 (s h d : Bytes) (hlow : ∀ c ∈ s, ¬ (65 ≤ c.toNat ∧ c.toNat ≤ 90)) :
    Decode s = .ok (h, d) ↔ LowerHrp h ∧ IsBech32 h d s := by
  constructor
  · intro hs
    obtain ⟨cs, vs, e, hn, hne, hlen, hok, -, hcs, hlt, hpm, hcv⟩ := decode_ok s h d hs
    have hhl : ∀ c ∈ h, ¬ (65 ≤ c.toNat ∧ c.toNat ≤ 90) := fun c hc => hlow c (by rw [e]; exact List.mem_append_left _ hc)
    have hcl : ∀ c ∈ cs, ¬ (65 ≤ c.toNat ∧ c.toNat ≤ 90) := fun c hc =>
      hlow c (by rw [e]; exact List.mem_append_right _ (List.mem_cons_of_mem _ hc))
    rw [toLower_of_low cs hcl] at hcs
    refine ⟨⟨hne, fun c hc => ?_⟩, vs.take (vs.length - 6), vs.drop (vs.length - 6), ?_⟩
    · unfold hrpCharsOk at hok
      rw [List.all_eq_true] at hok
      have := hok c hc
      simp only [Bool.and_eq_true, decide_eq_true_eq] at this
      exact ⟨UInt8.le_iff_toNat_le.1 this.1, UInt8.le_iff_toNat_le.1 this.2, hhl c hc⟩
    · obtain ⟨-, p, hp, hb⟩ := (C11_regroup_5_to_8 _ _).1 hcv
      rw [List.take_append_drop]
      refine ⟨p, hlt, by simp; omega, hp, hb, ?_, ?_⟩
      · rw [← C55_checksum_iff_remainder_one h vs hlt hhl]
        unfold verifyChecksum
        rw [hpm]; rfl
      · rw [e, hcs, map_chr_bip vs hlt]
  · rintro ⟨hh, body, chk, p, hlt, hc6, hp, hb, hrem, e⟩
    have hhl : ∀ c ∈ h, ¬ (65 ≤ c.toNat ∧ c.toNat ≤ 90) := fun c hc => (hh.2 c hc).2.2
    rw [← map_chr_bip _ hlt] at e
    have hcl : toLower ((body ++ chk).map chr) = (body ++ chk).map chr := by
      apply toLower_of_low
      intro c hc
      obtain ⟨v, hv, rfl⟩ := List.mem_map.1 hc
      exact (chr_low v (hlt v hv)).1
    rw [e]
    refine decode_of h d _ (body ++ chk) ?_ hh.1 (by simp; omega) hh.ok (.inl ?_) hcl hlt ?_ ?_
    · intro hc
      obtain ⟨v, hv, e⟩ := List.mem_map.1 hc
      exact (chr_low v (hlt v hv)).2 e
    · rw [← e]; exact toLower_of_low s hlow
    · have := (C55_checksum_iff_remainder_one h _ hlt hhl).2 hrem
      unfold verifyChecksum at this
      simpa using this
    · rw [C11_regroup_5_to_8]
      have ht : (body ++ chk).take ((body ++ chk).length - 6) = body := by
        rw [List.length_append, hc6, Nat.add_sub_cancel, List.take_left]
      rw [ht]
      exact ⟨fun x hx => hlt x (List.mem_append_left _ hx), p, hp, hb⟩

theorem isBech32_low (h d s : Bytes) (hh : LowerHrp h) (hs : IsBech32 h d s) : ∀ c ∈ s, ¬ (65 ≤ c.toNat ∧ c.toNat ≤ 90) := by
  obtain ⟨body, chk, p, hlt, hc6, hp, hb, hrem, e⟩ := hs
  rw [← map_chr_bip _ hlt] at e
  intro c hc
  rw [e] at hc
  rcases List.mem_append.1 hc with hc | hc
  · exact (hh.2 c hc).2.2
  · rcases List.mem_cons.1 hc with rfl | hc
    · decide
    · obtain ⟨v, hv, rfl⟩ := List.mem_map.1 hc
      exact (chr_low v (hlt v hv)).1

/-- **C67 (encoding).** For a legal lower-case human-readable part the encoder returns the BIP-173 string, and no other string qualifies. -/
theorem C67_encode_iff_bip173 (h d s : Bytes) (hh : LowerHrp h) : Encode h d = .ok s ↔ IsBech32 h d s := by
  constructor
  · intro hs
    obtain ⟨s', e, hd⟩ := C08_bech32_roundtrip h d hh
    rw [e] at hs
    cases hs
    refine ((C67_decode_iff_bip173 s h d ?_).1 hd).2
    obtain ⟨vs, hc, hlt, henc⟩ := encode_lower h d hh.1 hh.ok hh.low
    rw [e] at henc
    cases henc
    have hall : ∀ l : Bytes, (∀ v ∈ l, v.toNat < 32) → ∀ c ∈ l.map chr, ¬ (65 ≤ c.toNat ∧ c.toNat ≤ 90) := by
      intro l hl c hc
      obtain ⟨v, hv, rfl⟩ := List.mem_map.1 hc
      exact (chr_low v (hl v hv)).1
    intro c hc
    simp only [List.mem_append, List.mem_singleton] at hc
    rcases hc with ((hc | rfl) | hc) | hc
    · exact (hh.2 c hc).2.2
    · decide
    · exact hall _ hlt c hc
    · exact hall _ (createChecksum_lt h vs) c hc
  · intro hs
    have hlow := isBech32_low h d s hh hs
    exact C10_bech32_canonical s h d ((C67_decode_iff_bip173 s h d hlow).2 ⟨hh, hs⟩) hlow

/-- ASCII lower case, spelled out. -/
def asciiLower (s : Bytes) : Bytes := s.map fun c => if 65 ≤ c.toNat ∧ c.toNat ≤ 90 then UInt8.ofNat (c.toNat + 32) else c

theorem asciiLower_eq (s : Bytes) : asciiLower s = toLower s := by
  unfold asciiLower toLower
  apply List.map_congr_left
  intro c hc
  clear hc; revert c
  exact forall_byte (by decide +kernel)

theorem upper_lower (s : Bytes) (h : ∀ c ∈ s, ¬ (97 ≤ c.toNat ∧ c.toNat ≤ 122)) : toUpper (toLower s) = s := by
  unfold toUpper toLower
  rw [List.map_map]
  conv => rhs; rw [← List.map_id s]
  apply List.map_congr_left
  intro c hc
  have := h c hc
  revert this; clear hc; revert c
  exact forall_byte (by decide +kernel)

theorem lower_upper (s : Bytes) (h : toLower s = s) : toLower (toUpper s) = s := by
  rw [toLower_eq_self] at h
  unfold toUpper toLower
  rw [List.map_map]
  conv => rhs; rw [← List.map_id s]
  apply List.map_congr_left
  intro c hc
  have := h c hc
  revert this; clear hc; revert c
  exact forall_byte (by decide +kernel)

theorem toUpper_append' (a b : Bytes) : toUpper (a ++ b) = toUpper a ++ toUpper b := List.map_append

/-- **C67 (upper case).** A string without lower-case letters decodes to an upper-case human-readable part and bytes exactly when the
lower-case form of the string is the BIP-173 string for the lower-case part and the bytes. With `C10_bech32_mixed_case_rejected` and
`C67_decode_iff_bip173` this covers every string. -/
theorem C67_decode_upper_iff_bip173 (s h d : Bytes) (hup : ∀ c ∈ s, ¬ (97 ≤ c.toNat ∧ c.toNat ≤ 122)) :
    Decode s = .ok (h, d) ↔ (∀ c ∈ h, ¬ (97 ≤ c.toNat ∧ c.toNat ≤ 122)) ∧ LowerHrp (asciiLower h) ∧ IsBech32 (asciiLower h) d (asciiLower s) := by
  rw [asciiLower_eq, asciiLower_eq]
  have hll : ∀ l : Bytes, ∀ c ∈ toLower l, ¬ (65 ≤ c.toNat ∧ c.toNat ≤ 90) := by
    intro l c hc
    obtain ⟨x, -, rfl⟩ := List.mem_map.1 hc
    clear hc; revert x
    exact forall_byte (by decide +kernel)
  have idem : ∀ l : Bytes, toLower (toLower l) = toLower l := fun l => toLower_of_low _ (hll l)
  have hexp : ∀ l : Bytes, hrpExpand (toLower l) = hrpExpand l := by intro l; unfold hrpExpand; rw [idem]
  have hokl : ∀ l : Bytes, hrpCharsOk l = true → hrpCharsOk (toLower l) = true := by
    intro l hl
    unfold hrpCharsOk at hl ⊢
    rw [List.all_eq_true] at hl ⊢
    intro c hc
    obtain ⟨x, hx, rfl⟩ := List.mem_map.1 hc
    have := hl x hx
    revert this; clear hx hc; revert x
    exact forall_byte (by decide +kernel)
  have hoku : ∀ l : Bytes, hrpCharsOk l = true → hrpCharsOk (toUpper l) = true := by
    intro l hl
    unfold hrpCharsOk at hl ⊢
    rw [List.all_eq_true] at hl ⊢
    intro c hc
    obtain ⟨x, hx, rfl⟩ := List.mem_map.1 hc
    have := hl x hx
    revert this; clear hx hc; revert x
    exact forall_byte (by decide +kernel)
  rw [← C67_decode_iff_bip173 _ _ _ (hll s)]
  have n49 : ∀ x : UInt8, (lower8 x = 49 → x = 49) ∧ (upper8 x = 49 → x = 49) := forall_byte (by decide +kernel)
  constructor
  · intro hs
    obtain ⟨cs, vs, e, hn, hne, hlen, hok, -, hcs, hlt, hpm, hcv⟩ := decode_ok s h d hs
    refine ⟨fun c hc => hup c (by rw [e]; exact List.mem_append_left _ hc), ?_⟩
    have e2 : toLower s = toLower h ++ 49 :: toLower cs := by
      rw [e, toLower_append]; rfl
    rw [e2]
    refine decode_of _ _ _ vs ?_ ?_ hlen (hokl h hok) (.inl ?_) ?_ hlt ?_ hcv
    · intro hm
      obtain ⟨x, hx, hx2⟩ := List.mem_map.1 hm
      rw [(n49 x).1 hx2] at hx; exact hn hx
    · intro h0; exact hne (List.map_eq_nil_iff.1 h0)
    · rw [← e2, idem]
    · rw [idem, hcs]
    · rw [hexp]; exact hpm
  · rintro ⟨hhu, hs⟩
    obtain ⟨cs, vs, e, hn, hne, hlen, hok, -, hcs, hlt, hpm, hcv⟩ := decode_ok _ _ _ hs
    have e2 : s = h ++ 49 :: toUpper cs := by
      have := congrArg toUpper e
      rw [upper_lower s hup, toUpper_append', upper_lower h hhu] at this
      exact this
    have hcl : toLower cs = cs := by
      have h1 := idem s
      rw [e, toLower_append] at h1
      have h2 := (List.append_inj h1 (by simp [toLower])).2
      simp only [toLower, List.map_cons, List.cons.injEq] at h2
      exact h2.2
    have hup2 : toUpper s = s := by
      conv => lhs; rw [← upper_lower s hup]
      conv => rhs; rw [← upper_lower s hup]
      unfold toUpper
      rw [List.map_map]
      apply List.map_congr_left
      intro c hc
      clear hc; revert c
      exact forall_byte (by decide +kernel)
    conv => lhs; rw [e2]
    refine decode_of _ _ _ vs ?_ ?_ hlen ?_ (.inr ?_) ?_ hlt ?_ hcv
    · intro hm
      obtain ⟨x, hx, hx2⟩ := List.mem_map.1 hm
      rw [(n49 x).2 hx2] at hx; exact hn hx
    · intro h0; rw [h0] at hne; exact hne rfl
    · have := hoku _ hok
      rwa [upper_lower h hhu] at this
    · rw [← e2, hup2]
    · rw [lower_upper cs hcl, ← hcs, hcl]
    · rw [← hexp]; exact hpm

/-- Non-vacuity: an upper-case string that decodes. -/
example : (Decode (toUpper (sampleStake.1 ++ 49 :: sampleStake.2))).isOk = true := by decide +kernel

/-! ## C65 addresses on the wire -/
open Cardano.Addr

/-- The network a program asks for. -/
def cip19Net (main : Bool) : NetworkInfo := if main then MainNet else TestNet

/-- The credential a program makes from a hash. -/
def credFor (script : Bool) (h : Bytes) : Cred := if script then NewScriptStakeCredential h else NewKeyStakeCredential h

/-- CIP-19 header byte: type in the high four bits, network (1 main, 0 test) in the low four. -/
def cip19Header (type : Nat) (main : Bool) : UInt8 := UInt8.ofNat (16 * type + main.toNat)

/-- **C65 (bytes).** The addresses made by the constructors for the two networks, from 28-byte key or script hashes, have the bytes CIP-19
prescribes: header, payment hash, then the stake hash or the pointer as three minimal variable-length naturals. -/
theorem C65_constructed_bytes (main sp ss : Bool) (p s : Bytes) (hp : p.length = 28) (hs : s.length = 28) (slot tx cert : UInt64) :
    bytes (NewBaseAddress (cip19Net main) (credFor sp p) (credFor ss s)) = cip19Header (sp.toNat + 2 * ss.toNat) main :: (p ++ s) ∧
    bytes (NewEnterpriseAddress (cip19Net main) (credFor sp p)) = cip19Header (6 + sp.toNat) main :: p ∧
    bytes (NewRewardAddress (cip19Net main) (credFor ss s)) = cip19Header (14 + ss.toNat) main :: s ∧
    ∃ a b c, bytes (NewPointerAddress (cip19Net main) (credFor sp p) (NewPointer slot tx cert)) =
        cip19Header (4 + sp.toNat) main :: (p ++ a ++ b ++ c) ∧
      (MinimalVlq a ∧ val128 a = slot.toNat) ∧ (MinimalVlq b ∧ val128 b = tx.toNat) ∧ (MinimalVlq c ∧ val128 c = cert.toNat) := by
  have cz : ∀ l : Bytes, l.length = 28 → copyZ 28 l = l := fun l h => copyZ_eq _ _ h
  have kd : ∀ (b : Bool) (h : Bytes), (credFor b h).kind = if b then 1 else 0 := by intro b h; cases b <;> rfl
  have pay : ∀ (b : Bool) (h : Bytes), (credFor b h).payload = h := by intro b h; cases b <;> rfl
  refine ⟨?_, ?_, ?_, _, _, _, ?_, (C14_varnat_roundtrip slot []).2, (C14_varnat_roundtrip tx []).2, (C14_varnat_roundtrip cert []).2⟩
  · simp only [NewBaseAddress, bytes, pay, kd, cz p hp, cz s hs]
    congr 1
    revert main sp ss; decide
  · simp only [NewEnterpriseAddress, bytes, pay, kd, cz p hp]
    congr 1
    revert main sp; decide
  · simp only [NewRewardAddress, bytes, pay, kd, cz s hs]
    congr 1
    revert main ss; decide
  · simp only [NewPointerAddress, NewPointer, bytes, pay, kd, List.cons_append, List.append_assoc]
    congr 1
    revert main sp; decide

/-- **C65 (text).** The text of such base, enterprise and reward addresses is the BIP-173 string of these bytes with the prefix CIP-5
prescribes: "addr" and "stake" on the main network, "addr_test" and "stake_test" on the test network. -/
theorem C65_constructed_text (main sp ss : Bool) (p s : Bytes) :
    let pre := if main then asc ['a','d','d','r'] else asc ['a','d','d','r','_','t','e','s','t']
    let spre := if main then asc ['s','t','a','k','e'] else asc ['s','t','a','k','e','_','t','e','s','t']
    (∀ a, a = NewBaseAddress (cip19Net main) (credFor sp p) (credFor ss s) ∨ a = NewEnterpriseAddress (cip19Net main) (credFor sp p) →
      ∃ t, string a = .ok t ∧ IsBech32 pre (bytes a) t) ∧
    ∃ t, string (NewRewardAddress (cip19Net main) (credFor ss s)) = .ok t ∧
      IsBech32 spre (bytes (NewRewardAddress (cip19Net main) (credFor ss s))) t := by
  intro pre spre
  have low1 : LowerHrp pre := by
    cases main
    · exact ⟨by decide, by decide⟩
    · exact ⟨by decide, by decide⟩
  have low2 : LowerHrp spre := by
    cases main
    · exact ⟨by decide, by decide⟩
    · exact ⟨by decide, by decide⟩
  have key : ∀ (g : Bytes), LowerHrp g → ∀ d, ∃ t, orEmpty (Encode g d) = .ok t ∧ IsBech32 g d t := by
    intro g hg d
    obtain ⟨t, e, -⟩ := C08_bech32_roundtrip g d hg
    exact ⟨t, by rw [e]; rfl, (C67_encode_iff_bip173 g d t hg).1 e⟩
  refine ⟨?_, ?_⟩
  · rintro a (rfl | rfl)
    · have : pfx (NewBaseAddress (cip19Net main) (credFor sp p) (credFor ss s)) = pre := by cases main <;> rfl
      obtain ⟨t, h⟩ := key pre low1 (bytes (NewBaseAddress (cip19Net main) (credFor sp p) (credFor ss s)))
      refine ⟨t, ?_, h.2⟩
      rw [← h.1, ← this]; rfl
    · have : pfx (NewEnterpriseAddress (cip19Net main) (credFor sp p)) = pre := by cases main <;> rfl
      obtain ⟨t, h⟩ := key pre low1 (bytes (NewEnterpriseAddress (cip19Net main) (credFor sp p)))
      refine ⟨t, ?_, h.2⟩
      rw [← h.1, ← this]; rfl
  · have : pfx (NewRewardAddress (cip19Net main) (credFor ss s)) = spre := by cases main <;> rfl
    obtain ⟨t, h⟩ := key spre low2 (bytes (NewRewardAddress (cip19Net main) (credFor ss s)))
    refine ⟨t, ?_, h.2⟩
    rw [← h.1, ← this]; rfl

/-- **C65 (network).** A parsed Shelley address whose header carries network 1 reports network id 1 and the protocol magic of the main
network, 764824073; with network 0 it reports id 0 and the magic of the (legacy) test network, 1097911063. A Byron address reports
764824073 when it carries no network attribute and 1097911063 otherwise. -/
theorem C65_reported_network (strict : Bool) (h : UInt8) (t spare : Bytes) (a : Address)
    (ha : NewAddressFromBytes strict (h :: t) spare = .ok a) :
    (kindOfAddress a ≠ .byron → h.toNat % 16 = 1 → (networkInfo a).networkId.toNat = 1 ∧ (networkInfo a).protocolMagic.toNat = 764824073) ∧
    (kindOfAddress a ≠ .byron → h.toNat % 16 = 0 → (networkInfo a).networkId.toNat = 0 ∧ (networkInfo a).protocolMagic.toNat = 1097911063) ∧
    (∀ b, a = .byron b → (networkInfo a).protocolMagic.toNat = if b.attributes.network = none then 764824073 else 1097911063) := by
  refine ⟨fun hk h1 => ?_, fun hk h0 => ?_, ?_⟩
  · rw [((C07_network_preserved_partial strict h t spare a ha hk).1 h1).1]; exact ⟨rfl, rfl⟩
  · rw [((C07_network_preserved_partial strict h t spare a ha hk).2 h0).1]; exact ⟨rfl, rfl⟩
  · rintro b rfl
    show (if b.attributes.network = none then MainNet else TestNet).protocolMagic.toNat = _
    split <;> rfl

/-- Non-vacuity: a script enterprise address on the main network parses. -/
example : ∃ a, NewAddressFromBytes true (0x71 :: List.replicate 28 5) [] = .ok a ∧ kindOfAddress a ≠ .byron := ⟨_, rfl, by decide⟩

/-! ## C68 Base58 text of Byron addresses -/

/-- The Bitcoin Base58 alphabet: digits and letters without 0, O, I, l. -/
def b58Char (d : Nat) : UInt8 := (asc
  ['1','2','3','4','5','6','7','8','9','A','B','C','D','E','F','G','H','J','K','L','M','N','P','Q','R','S','T','U','V','W','X','Y','Z',
   'a','b','c','d','e','f','g','h','i','j','k','m','n','o','p','q','r','s','t','u','v','w','x','y','z']).getD d 0

/-- `s` is the Base58 text of the bytes `b`: a '1' for each leading zero byte, then the digits, without leading zeros, of the number that the
remaining bytes spell. -/
def IsBase58 (b s : Bytes) : Prop :=
  ∃ (k : Nat) (t : Bytes) (ds : List Nat), b = List.replicate k 0 ++ t ∧ (∀ x r, t = x :: r → x ≠ 0) ∧
    (∀ d ∈ ds, d < 58) ∧ (∀ d r, ds = d :: r → d ≠ 0) ∧
    ds.foldl (fun a d => a * 58 + d) 0 = t.foldl (fun a x => a * 256 + x.toNat) 0 ∧
    s = List.replicate k 49 ++ ds.map b58Char

theorem b58Char_eq (d : Nat) (h : d < 58) : Base58.alphabet.getD d 0 = b58Char d := by
  have : ∀ d : Fin 58, Base58.alphabet.getD d.val 0 = b58Char d.val := by decide +kernel
  exact this ⟨d, h⟩

theorem base58_iff (b s : Bytes) : Base58.encode b = s ↔ IsBase58 b s := by
  constructor
  · rintro rfl
    obtain ⟨t, e, ht⟩ := Base58.leading_split 0 b
    have hv : Cbor.beVal t = Cbor.beVal b := by conv => rhs; rw [e, Base58.beVal_zeros]
    refine ⟨Base58.leading 0 b, t, Base58.digits 58 (Cbor.beVal b + 1) (Cbor.beVal b), e, ht, Base58.digits_lt 58 (by omega) _ _,
      fun d r hd => Base58.digits_lead 58 (by omega) _ _ (by omega) d r hd, ?_, ?_⟩
    · rw [Base58.digits_val 58 (by omega) _ _ (by omega), ← hv]; rfl
    · unfold Base58.encode
      rw [List.map_congr_left fun d hd => b58Char_eq d (Base58.digits_lt 58 (by omega) _ _ d hd)]
  · rintro ⟨k, t, ds, rfl, ht, hlt, hlead, hv, rfl⟩
    unfold Base58.encode
    rw [Base58.leading_append 0 k t ht, Base58.beVal_zeros]
    have hv' : ds.foldl (fun a d => a * 58 + d) 0 = Cbor.beVal t := hv
    rw [Base58.digits_canon 58 (by omega) ds _ _ hlt hlead hv' (by omega)]
    rw [List.map_congr_left fun d hd => b58Char_eq d (hlt d hd)]

/-- **C68 (text).** The text of a Byron address is the Base58 text of its bytes, and nothing else. -/
theorem C68_byron_text_is_base58 (b : ByronAddress) (s : Bytes) : string (.byron b) = .ok s ↔ IsBase58 (bytes (.byron b)) s := by
  rw [← base58_iff]
  constructor
  · intro h; cases h; rfl
  · intro h; rw [← h]; rfl

/-- **C68 (parsing).** A string that does not look like Bech32 and is the Base58 text of some bytes is parsed as these bytes. -/
theorem C68_base58_text_parsed (strict : Bool) (b s spare : Bytes) (hs : IsBase58 b s) (hl : ¬ LooksBech32 s) :
    NewAddress strict s spare = NewAddressFromBytes strict b spare := by
  rw [← base58_iff] at hs
  unfold NewAddress
  rw [if_neg (fun h => hl ((looks_iff s).1 h)), ← hs, Base58.decode_encode]

/-- Non-vacuity: the Base58 text of a byte string with a leading zero byte, computed with digits 0, 5, 14. -/
example : IsBase58 [0, 1, 48] (asc ['1','6','F']) :=
  ⟨1, [1, 48], [5, 14], rfl, by rintro x r h; cases h; decide, by decide, by rintro x r h; cases h; decide, by decide, by decide⟩

end Cardano.Props
