import Verif.Props.Address
/-!
# Properties C56, C57: what strings `NewAddress` accepts
-/
set_option autoImplicit false

namespace Cardano.Props
open Cardano.Spec Cardano.Addr Cardano.Bech32

/-- The string starts like a bech32 Cardano address. -/
def LooksBech32 (s : Bytes) : Prop := asc ['a','d','d','r'] <+: s ∨ asc ['s','t','a','k','e'] <+: s

theorem hasPrefix_iff (s p : Bytes) : hasPrefix s p = true ↔ p <+: s := by
  unfold hasPrefix
  rw [beq_iff_eq]
  constructor
  · intro h; exact ⟨s.drop p.length, by conv => lhs; lhs; rw [← h]
                                        exact List.take_append_drop _ _⟩
  · rintro ⟨t, rfl⟩; simp

theorem looks_iff (s : Bytes) : (hasPrefix s (asc ['a','d','d','r']) || hasPrefix s (asc ['s','t','a','k','e'])) = true ↔ LooksBech32 s := by
  rw [Bool.or_eq_true, hasPrefix_iff, hasPrefix_iff]; rfl

theorem newAddress_bech32 (strict : Bool) (s spare : Bytes) (h : LooksBech32 s) :
    NewAddress strict s spare = match Decode s with
      | .ok (_, data) => NewAddressFromBytes strict data spare
      | .err m => .err m
      | .panic => .panic := by
  unfold NewAddress
  rw [if_pos ((looks_iff s).2 h)]
  cases Decode s <;> rfl

theorem looks_append (h cs : Bytes) (hl : LooksBech32 h) : LooksBech32 (h ++ cs) := by
  rcases hl with ⟨t, rfl⟩ | ⟨t, rfl⟩
  · exact Or.inl ⟨t ++ cs, by simp⟩
  · exact Or.inr ⟨t ++ cs, by simp⟩

theorem accepted_decodes (strict : Bool) (s spare : Bytes) (a : Address) (hl : LooksBech32 s)
    (h : NewAddress strict s spare = .ok a) :
    ∃ hrp d, Decode s = .ok (hrp, d) ∧ NewAddressFromBytes strict d spare = .ok a := by
  rw [newAddress_bech32 _ _ _ hl] at h
  cases hd : Decode s with
  | ok r => obtain ⟨hrp, d⟩ := r; rw [hd] at h; exact ⟨hrp, d, rfl, h⟩
  | err m => rw [hd] at h; cases h
  | panic => rw [hd] at h; cases h

theorem err_of_decode (strict : Bool) (s spare : Bytes) (hl : LooksBech32 s) (h : ∃ m, Decode s = .err m) :
    ∃ m, NewAddress strict s spare = .err m := by
  obtain ⟨m, h⟩ := h
  exact ⟨m, by rw [newAddress_bech32 _ _ _ hl, h]⟩

/-- **C56 (bursts).** Take a string `h ++ "1" ++ cs` that `NewAddress` accepts, whose human-readable part starts with
"addr" or "stake". Change characters of the data part within six consecutive positions (more than letter case): the
result is rejected with an error. -/
theorem C56_mistyped_burst_rejected (strict : Bool) (h cs cs' spare spare' : Bytes) (a : Address) (hl : LooksBech32 h)
    (hacc : NewAddress strict (h ++ 49 :: cs) spare = .ok a) (hn : (49 : UInt8) ∉ cs) (hn' : (49 : UInt8) ∉ cs')
    (hlen : cs'.length = cs.length) (hne : toLower cs' ≠ toLower cs)
    (i : Nat) (hwin : ∀ j, j < i ∨ i + 6 ≤ j → cs'[j]? = cs[j]?) :
    ∃ m, NewAddress strict (h ++ 49 :: cs') spare' = .err m := by
  obtain ⟨hrp, d, hd, _⟩ := accepted_decodes _ _ _ _ (looks_append _ _ hl) hacc
  exact err_of_decode _ _ _ (looks_append _ _ hl) (C09_bech32_detects_burst h cs cs' _ hd hn hn' hlen hne i hwin)

/-- **C56 (two characters).** The same when at most two characters of the data part, less than 1023 apart, are changed. -/
theorem C56_mistyped_two_rejected (strict : Bool) (h cs cs' spare spare' : Bytes) (a : Address) (hl : LooksBech32 h)
    (hacc : NewAddress strict (h ++ 49 :: cs) spare = .ok a) (hn : (49 : UInt8) ∉ cs) (hn' : (49 : UInt8) ∉ cs')
    (hlen : cs'.length = cs.length) (hne : toLower cs' ≠ toLower cs)
    (i k : Nat) (hk : k < 1023) (hwin : ∀ j, j ≠ i → j ≠ i + k → cs'[j]? = cs[j]?) :
    ∃ m, NewAddress strict (h ++ 49 :: cs') spare' = .err m := by
  obtain ⟨hrp, d, hd, _⟩ := accepted_decodes _ _ _ _ (looks_append _ _ hl) hacc
  exact err_of_decode _ _ _ (looks_append _ _ hl) (C09_bech32_detects_two h cs cs' _ hd hn hn' hlen hne i k hk hwin)

/-- Non-vacuity for C56: the stake address of the repository's tests is accepted. -/
example : (NewAddress true (sampleStake.1 ++ 49 :: sampleStake.2) []).isOk = true := by decide +kernel

/-- **C57 (partial).** If `NewAddress` accepts a lower-case bech32 string, then that string is the bech32 encoding of the
address bytes that were parsed, under the human-readable part that was given. Missing: the human-readable part need
not be the one of the address, see `C57_prefix_not_checked`. -/
theorem C57_accepted_string_canonical_partial (strict : Bool) (s spare : Bytes) (a : Address) (hl : LooksBech32 s)
    (hlow : ∀ c ∈ s, ¬ (65 ≤ c.toNat ∧ c.toNat ≤ 90)) (h : NewAddress strict s spare = .ok a) :
    ∃ hrp d, NewAddressFromBytes strict d spare = .ok a ∧ Encode hrp d = .ok s ∧
      (hrp = pfx a → bytes a = d → (∀ n p t, a ≠ .pointer n p t) → (∀ b, a ≠ .byron b) → string a = .ok s) := by
  obtain ⟨hrp, d, hd, ha⟩ := accepted_decodes _ _ _ _ hl h
  have he := C10_bech32_canonical s hrp d hd hlow
  refine ⟨hrp, d, ha, he, fun e1 e2 hp hb => ?_⟩
  cases a with
  | pointer n p t => exact absurd rfl (hp n p t)
  | byron b => exact absurd rfl (hb b)
  | base n p t => show orEmpty (Encode _ _) = _; rw [← e1, e2, he]; rfl
  | enterprise n p => show orEmpty (Encode _ _) = _; rw [← e1, e2, he]; rfl
  | reward n p => show orEmpty (Encode _ _) = _; rw [← e1, e2, he]; rfl

/-- **C57 is false**: every well-formed base, enterprise and reward address is also accepted under every other
human-readable part that starts with "addr" or "stake" - in particular a TestNet payment address under the MainNet
stake prefix - and prints back differently. -/
theorem C57_prefix_not_checked (strict : Bool) (a : Address) (spare h : Bytes) (ha : ShelleyOk a)
    (hh : LowerHrp h) (hl : LooksBech32 h) (hne : h ≠ pfx a) (hp : ∀ n p t, a ≠ .pointer n p t) :
    ∃ s, NewAddress strict s spare = .ok a ∧ string a ≠ .ok s := by
  obtain ⟨s, h1, h2⟩ := C08_bech32_roundtrip h (bytes a) hh
  obtain ⟨cs, vs, e, _⟩ := Bech32.decode_ok _ _ _ h2
  refine ⟨s, ?_, ?_⟩
  · rw [newAddress_bech32 _ _ _ (by rw [e]; exact looks_append _ _ hl), h2]
    exact C01_bytes_roundtrip strict a spare ha
  · intro hs
    have key : ∀ g : Bytes, LowerHrp g → string a = orEmpty (Encode g (bytes a)) → g = pfx a → False := by
      intro g hg hsg hgp
      obtain ⟨s', h1', h2'⟩ := C08_bech32_roundtrip g (bytes a) hg
      rw [hsg, h1'] at hs
      have : s' = s := by cases hs; rfl
      rw [this, h2] at h2'
      injection h2' with h2'
      injection h2' with h2' _
      exact hne (h2'.trans hgp)
    cases a with
    | base n p t =>
      rcases ha.1 with rfl | rfl
      · exact key (asc ['a','d','d','r']) (by unfold LowerHrp; decide) rfl rfl
      · exact key (asc ['a','d','d','r','_','t','e','s','t']) (by unfold LowerHrp; decide) rfl rfl
    | enterprise n p =>
      rcases ha.1 with rfl | rfl
      · exact key (asc ['a','d','d','r']) (by unfold LowerHrp; decide) rfl rfl
      · exact key (asc ['a','d','d','r','_','t','e','s','t']) (by unfold LowerHrp; decide) rfl rfl
    | pointer n p t => exact hp n p t rfl
    | reward n p =>
      rcases ha.1 with rfl | rfl
      · exact key (asc ['s','t','a','k','e']) (by unfold LowerHrp; decide) rfl rfl
      · exact key (asc ['s','t','a','k','e','_','t','e','s','t']) (by unfold LowerHrp; decide) rfl rfl
    | byron b => exact ha

/-- Non-vacuity for C57: a foreign prefix for a TestNet enterprise address. -/
example : LowerHrp (asc ['s','t','a','k','e']) ∧ LooksBech32 (asc ['s','t','a','k','e']) ∧
    asc ['s','t','a','k','e'] ≠ pfx (.enterprise TestNet ⟨0, List.replicate 28 3⟩) :=
  ⟨by unfold LowerHrp; decide, Or.inr ⟨[], rfl⟩, by decide⟩

end Cardano.Props
