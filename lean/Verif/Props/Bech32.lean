import Verif.Bech32.Detect
/-!
# Properties C08 - C11 and C55: bech32

`Bech32.Encode` / `Bech32.Decode` / `Bech32.convertBits` / `Bech32.polymod` are the model of `internal/bech32/bech32.go`.
-/
set_option autoImplicit false

namespace Cardano.Props
open Cardano.Spec Cardano.Bech32

/-- A legal lower-case human-readable part: nonempty printable ASCII without upper-case letters. -/
def LowerHrp (h : Bytes) : Prop := h ≠ [] ∧ ∀ c ∈ h, 33 ≤ c.toNat ∧ c.toNat ≤ 126 ∧ ¬ (65 ≤ c.toNat ∧ c.toNat ≤ 90)

theorem LowerHrp.ok {h : Bytes} (hh : LowerHrp h) : hrpCharsOk h = true := by
  unfold hrpCharsOk
  rw [List.all_eq_true]
  intro c hc
  obtain ⟨a, b, _⟩ := hh.2 c hc
  have h1 : (33 : UInt8) ≤ c := UInt8.le_iff_toNat_le.2 a
  have h2 : c ≤ 126 := UInt8.le_iff_toNat_le.2 b
  simp [h1, h2]

theorem LowerHrp.low {h : Bytes} (hh : LowerHrp h) : toLower h = h := by
  rw [toLower_eq_self]
  intro c hc
  obtain ⟨_, _, n⟩ := hh.2 c hc
  unfold lower8
  rw [if_neg]
  intro ⟨h1, h2⟩
  exact n ⟨UInt8.le_iff_toNat_le.1 h1, UInt8.le_iff_toNat_le.1 h2⟩

/-- **C08.** Encoding never fails and decoding gives back the same human-readable part and the same bytes, for every
legal lower-case human-readable part and every byte string. -/
theorem C08_bech32_roundtrip (h d : Bytes) (hh : LowerHrp h) :
    ∃ s, Encode h d = .ok s ∧ Decode s = .ok (h, d) := by
  obtain ⟨vs, hc, hlt, henc⟩ := encode_lower h d hh.1 hh.ok hh.low
  refine ⟨_, henc, ?_⟩
  obtain ⟨out, p, hc', hlt', hp, hlen, hval⟩ := convert_pad 8 5 (by omega) (by omega) (by omega) d
    (fun x _ => by have := UInt8.toNat_lt x; simpa using this)
  rw [hc] at hc'
  cases hc'
  have e : h ++ [49] ++ List.map chr vs ++ List.map chr (createChecksum h vs) =
      h ++ 49 :: (vs ++ createChecksum h vs).map chr := by simp
  have hall : ∀ v ∈ vs ++ createChecksum h vs, v.toNat < 32 := by
    intro v hv
    rcases List.mem_append.1 hv with h | h
    · exact hlt v h
    · exact createChecksum_lt _ _ v h
  have hlow : toLower ((vs ++ createChecksum h vs).map chr) = (vs ++ createChecksum h vs).map chr := by
    rw [toLower_eq_self]
    intro c hcm
    obtain ⟨d, hd, rfl⟩ := List.mem_map.1 hcm
    exact chr_lower d (hall d hd)
  rw [e]
  apply decode_of h d _ (vs ++ createChecksum h vs)
  · intro hm
    obtain ⟨x, hx, hx2⟩ := List.mem_map.1 hm
    exact chr_ne_sep x (hall x hx) hx2
  · exact hh.1
  · simp [createChecksum_length]
  · exact hh.ok
  · left
    rw [toLower_append, hh.low]
    congr 1
    show lower8 49 :: toLower _ = _
    rw [hlow]; rfl
  · exact hlow
  · exact hall
  · have := verify_create h vs
    simpa [verifyChecksum] using this
  · have ht : (vs ++ createChecksum h vs).take ((vs ++ createChecksum h vs).length - 6) = vs := by
      simp [createChecksum_length]
    rw [ht]
    exact convert_nopad_ok 5 8 (by omega) (by omega) (by omega) vs d hlt
      (fun x _ => by have := UInt8.toNat_lt x; simpa using this) p (by omega) (by omega) (by omega) hval

/-- C08 hypotheses are satisfiable: `stake_test` is a legal lower-case human-readable part (with `_`). -/
example : LowerHrp (asc ['s','t','a','k','e','_','t','e','s','t']) := by unfold LowerHrp; decide

/-! ## C09 error detection -/

/-- The data characters of two accepted strings with the same human-readable part. -/
theorem same_hrp (h cs cs' : Bytes) (r r' : Bytes × Bytes) (hn : (49 : UInt8) ∉ cs) (hn' : (49 : UInt8) ∉ cs')
    (hl : cs'.length = cs.length)
    (hd : Decode (h ++ 49 :: cs) = .ok r) (hd' : Decode (h ++ 49 :: cs') = .ok r') :
    ∃ vs vs', toLower cs = vs.map chr ∧ toLower cs' = vs'.map chr ∧ (∀ v ∈ vs, v.toNat < 32) ∧
      (∀ v ∈ vs', v.toNat < 32) ∧ vs.length = vs'.length ∧ vs.length = cs.length ∧
      (xorList vs vs').foldl polymodStep 0 = 0 := by
  have key : ∀ (cs : Bytes) (r : Bytes × Bytes), (49 : UInt8) ∉ cs → Decode (h ++ 49 :: cs) = .ok r →
      ∃ vs, toLower cs = vs.map chr ∧ (∀ v ∈ vs, v.toNat < 32) ∧ polymod (hrpExpand h ++ vs) = 1 := by
    intro cs r hn hd
    obtain ⟨h1, d1⟩ := r
    obtain ⟨cs1, vs, e, hn1, _, _, _, _, hcs, hlt, hpm, _⟩ := decode_ok _ _ _ hd
    have i1 := lastIndex1_sep h cs hn
    rw [e, lastIndex1_sep h1 cs1 hn1] at i1
    have : h1.length = h.length := by simpa using i1
    obtain ⟨rfl, e2⟩ := List.append_inj e this.symm
    cases e2
    exact ⟨vs, hcs, hlt, hpm⟩
  obtain ⟨vs, a1, a2, a3⟩ := key cs r hn hd
  obtain ⟨vs', b1, b2, b3⟩ := key cs' r' hn' hd'
  have l1 : cs.length = vs.length := by simpa [toLower] using congrArg List.length a1
  have l2 : cs'.length = vs'.length := by simpa [toLower] using congrArg List.length b1
  exact ⟨vs, vs', a1, b1, a2, b2, by omega, by omega, syndrome _ vs vs' (by omega) a3 b3⟩

theorem chr_inj (a b : UInt8) (ha : a.toNat < 32) (hb : b.toNat < 32) (h : chr a = chr b) : a = b := by
  have := charIndex_chr a ha
  rw [h, charIndex_chr b hb] at this
  cases this; rfl

/-- Position-wise: equal characters give a zero in the difference of the symbol strings. -/
theorem diff_zero (cs cs' vs vs' : Bytes) (h1 : toLower cs = vs.map chr) (h2 : toLower cs' = vs'.map chr)
    (b1 : ∀ v ∈ vs, v.toNat < 32) (b2 : ∀ v ∈ vs', v.toNat < 32) (hl : vs.length = vs'.length) (j : Nat)
    (hj : j < (xorList vs vs').length) (hc : cs[j]?.map lower8 = cs'[j]?.map lower8) :
    (xorList vs vs')[j] = 0 := by
  have hlen : (xorList vs vs').length = vs.length := by simp [xorList, hl]
  have hj1 : j < vs.length := by omega
  have hj2 : j < vs'.length := by omega
  have e1 : (toLower cs)[j]? = some (chr vs[j]) := by rw [h1]; simp [hj1]
  have e2 : (toLower cs')[j]? = some (chr vs'[j]) := by rw [h2]; simp [hj2]
  have e3 : (toLower cs)[j]? = (toLower cs')[j]? := by simp [toLower, hc]
  rw [e1, e2] at e3
  have := chr_inj _ _ (b1 _ (List.getElem_mem hj1)) (b2 _ (List.getElem_mem hj2)) (by simpa using e3)
  simp [xorList, this]

theorem all_zero_eq (vs vs' : Bytes) (hl : vs.length = vs'.length) (h : ∀ x ∈ xorList vs vs', x = 0) : vs = vs' := by
  apply List.ext_getElem hl
  intro i h1 h2
  have hi : i < (xorList vs vs').length := by simp [xorList]; omega
  have := h _ (List.getElem_mem hi)
  simp only [xorList, List.getElem_zipWith] at this
  exact UInt8.xor_eq_zero_iff.1 this

theorem xorList_lt (vs vs' : Bytes) (b1 : ∀ v ∈ vs, v.toNat < 32) (b2 : ∀ v ∈ vs', v.toNat < 32) :
    ∀ x ∈ xorList vs vs', x.toNat < 32 := by
  intro x hx
  obtain ⟨j, hj, rfl⟩ := List.getElem_of_mem hx
  simp only [xorList, List.getElem_zipWith]
  exact xor8_lt _ _ (b1 _ (List.getElem_mem _)) (b2 _ (List.getElem_mem _))

/-- **C09 (bursts).** Let `h ++ "1" ++ cs` be accepted (`cs` is the data part: it holds no separator). Any other data
part of the same length that differs (beyond letter case) only within some six consecutive positions is rejected.
With the window shrunk to one character this is the single-error case. -/
theorem C09_bech32_detects_burst (h cs cs' : Bytes) (r : Bytes × Bytes)
    (hacc : Decode (h ++ 49 :: cs) = .ok r) (hn : (49 : UInt8) ∉ cs) (hn' : (49 : UInt8) ∉ cs')
    (hlen : cs'.length = cs.length) (hne : toLower cs' ≠ toLower cs)
    (i : Nat) (hwin : ∀ j, j < i ∨ i + 6 ≤ j → cs'[j]? = cs[j]?) :
    ∃ m, Decode (h ++ 49 :: cs') = .err m := by
  cases hd' : Decode (h ++ 49 :: cs') with
  | err m => exact ⟨m, rfl⟩
  | panic => exact absurd hd' (decode_not_panic _)
  | ok r' =>
    exfalso
    obtain ⟨vs, vs', a1, a2, b1, b2, l1, _, hs⟩ := same_hrp h cs cs' r r' hn hn' hlen hacc hd'
    have hx := xorList_lt vs vs' b1 b2
    have := burst (xorList vs vs') hx i (fun j hj hw =>
      diff_zero cs cs' vs vs' a1 a2 b1 b2 l1 j hj (by rw [hwin j hw])) hs
    have e := all_zero_eq vs vs' l1 this
    apply hne
    rw [a1, a2, e]

/-- **C09 (two characters).** Changing (beyond letter case) any two data characters less than 1023 positions apart, or
just one of them, makes an accepted string be rejected. -/
theorem C09_bech32_detects_two (h cs cs' : Bytes) (r : Bytes × Bytes)
    (hacc : Decode (h ++ 49 :: cs) = .ok r) (hn : (49 : UInt8) ∉ cs) (hn' : (49 : UInt8) ∉ cs')
    (hlen : cs'.length = cs.length) (hne : toLower cs' ≠ toLower cs)
    (i k : Nat) (hk : k < 1023) (hwin : ∀ j, j ≠ i → j ≠ i + k → cs'[j]? = cs[j]?) :
    ∃ m, Decode (h ++ 49 :: cs') = .err m := by
  -- the single-error case is a burst
  by_cases hone : cs'[i]?.map lower8 = cs[i]?.map lower8 ∨ cs'[i+k]?.map lower8 = cs[i+k]?.map lower8
    ∨ k = 0 ∨ cs.length ≤ i + k
  · have single : ∀ i0 : Nat, (∀ j : Nat, j ≠ i0 → cs'[j]?.map lower8 = cs[j]?.map lower8) →
        ∃ m, Decode (h ++ 49 :: cs') = .err m := by
      intro i0 hw
      cases hd' : Decode (h ++ 49 :: cs') with
      | err m => exact ⟨m, rfl⟩
      | panic => exact absurd hd' (decode_not_panic _)
      | ok r' =>
        exfalso
        obtain ⟨vs, vs', a1, a2, b1, b2, l1, _, hs⟩ := same_hrp h cs cs' r r' hn hn' hlen hacc hd'
        have := burst (xorList vs vs') (xorList_lt vs vs' b1 b2) i0 (fun j hj hw' =>
          diff_zero cs cs' vs vs' a1 a2 b1 b2 l1 j hj (hw j (by omega)).symm) hs
        apply hne
        rw [a1, a2, all_zero_eq vs vs' l1 this]
    rcases hone with h1 | h1 | h1 | h1
    · refine single (i + k) fun j hj => ?_
      by_cases hji : j = i
      · rw [hji]; exact h1
      · rw [hwin j hji hj]
    · refine single i fun j hj => ?_
      by_cases hji : j = i + k
      · rw [hji]; exact h1
      · rw [hwin j hj hji]
    · refine single i fun j hj => ?_
      rw [hwin j hj (by omega)]
    · refine single i fun j hj => ?_
      by_cases hji : j = i + k
      · rw [List.getElem?_eq_none (by omega), List.getElem?_eq_none (by omega)]
      · rw [hwin j hj hji]
  · simp only [not_or] at hone
    obtain ⟨hi1, _, hk0, hlt⟩ := hone
    cases hd' : Decode (h ++ 49 :: cs') with
    | err m => exact ⟨m, rfl⟩
    | panic => exact absurd hd' (decode_not_panic _)
    | ok r' =>
      exfalso
      obtain ⟨vs, vs', a1, a2, b1, b2, l1, l2, hs⟩ := same_hrp h cs cs' r r' hn hn' hlen hacc hd'
      have hxl : (xorList vs vs').length = vs.length := by simp [xorList, l1]
      have hz := two_pos (xorList vs vs') (xorList_lt vs vs' b1 b2) i k (by omega) hk (by omega)
        (fun j hj h1 h2 => diff_zero cs cs' vs vs' a1 a2 b1 b2 l1 j hj (by rw [hwin j h1 h2])) hs
      apply hi1
      simp only [xorList, List.getElem_zipWith] at hz
      have hz' := UInt8.xor_eq_zero_iff.1 hz
      have e1 : (toLower cs)[i]? = cs[i]?.map lower8 := by simp [toLower]
      have e2 : (toLower cs')[i]? = cs'[i]?.map lower8 := by simp [toLower]
      rw [← e1, ← e2, a1, a2]
      have hv : i < vs.length := by omega
      have hv' : i < vs'.length := by omega
      simp [hv, hv', hz']

/-- C09: an accepted string to which the theorems apply (a TestNet stake address of the repository's tests). -/
def sampleStake : Bytes × Bytes := (asc "stake_test".toList, asc "uqevw2xnsc0pvn9t9r9c7qryfqfeerchgrlm3ea2nefr9hqp8n5xl".toList)

example : (Decode (sampleStake.1 ++ 49 :: sampleStake.2)).isOk = true ∧ (49 : UInt8) ∉ sampleStake.2 := by
  decide +kernel

/-! ## C10 canonical decoding -/

/-- **C10 (canonical).** A lower-case string that decodes is exactly the encoding of what it decodes to. -/
theorem C10_bech32_canonical (s h d : Bytes) (hs : Decode s = .ok (h, d))
    (hlow : ∀ c ∈ s, ¬ (65 ≤ c.toNat ∧ c.toNat ≤ 90)) : Encode h d = .ok s := by
  have hls : toLower s = s := by
    rw [toLower_eq_self]
    intro c hc
    unfold lower8
    rw [if_neg]
    intro ⟨h1, h2⟩
    exact hlow c hc ⟨UInt8.le_iff_toNat_le.1 h1, UInt8.le_iff_toNat_le.1 h2⟩
  obtain ⟨cs, vs, e, hn, hne, hlen, hok, _, hcs, hlt, hpm, hcv⟩ := decode_ok s h d hs
  have hlsplit : toLower h = h ∧ toLower cs = cs := by
    rw [e, toLower_append] at hls
    have h1 := List.append_inj hls (by simp [toLower])
    refine ⟨h1.1, ?_⟩
    have := h1.2
    simp only [toLower, List.map_cons, List.cons.injEq] at this
    exact this.2
  obtain ⟨ws, hc, hwlt, henc⟩ := encode_lower h d hne hok hlsplit.1
  obtain ⟨out, p, hc', _, hp, hl5, hval⟩ := convert_pad 8 5 (by omega) (by omega) (by omega) d
    (fun x _ => by have := UInt8.toNat_lt x; simpa using this)
  rw [hc] at hc'
  cases hc'
  obtain ⟨_, _, q, hq8, hq5, hlq, hvq⟩ := convert_nopad 5 8 (by omega) (by omega) (by omega) _ _ hcv
  have hlt1 : ∀ v ∈ vs.take (vs.length - 6), v.toNat < 2 ^ 5 := fun v hv => hlt v (List.mem_of_mem_take hv)
  have hpq : p = q := by omega
  subst hpq
  have hw : vs.take (vs.length - 6) = ws :=
    val_inj 5 _ _ hlt1 hwlt (by omega) (by rw [hvq, hval])
  have hsplit : vs = ws ++ vs.drop (vs.length - 6) := by
    rw [← hw, List.take_append_drop]
  have hchk : vs.drop (vs.length - 6) = createChecksum h ws := by
    apply six_unique (polymod (hrpExpand h ++ ws))
    · simp; omega
    · exact createChecksum_length h ws
    · exact fun x hx => hlt x (List.mem_of_mem_drop hx)
    · exact createChecksum_lt h ws
    · have h1 := verify_create h ws
      simp only [verifyChecksum, beq_iff_eq] at h1
      rw [← polymod_append, ← polymod_append, List.append_assoc, ← hsplit, hpm, List.append_assoc, h1]
  rw [henc, e]
  congr 1
  rw [hlsplit.2] at hcs
  rw [hcs, hsplit, hchk]
  simp

/-- **C10 (no two names).** Two different lower-case strings never decode to the same human-readable part and bytes. -/
theorem C10_bech32_injective (s s' h d : Bytes) (hs : Decode s = .ok (h, d)) (hs' : Decode s' = .ok (h, d))
    (hlow : ∀ c ∈ s, ¬ (65 ≤ c.toNat ∧ c.toNat ≤ 90)) (hlow' : ∀ c ∈ s', ¬ (65 ≤ c.toNat ∧ c.toNat ≤ 90)) : s = s' := by
  have h1 := C10_bech32_canonical s h d hs hlow
  rw [C10_bech32_canonical s' h d hs' hlow'] at h1
  cases h1; rfl

/-- **C10 (mixed case).** A string with both a lower-case and an upper-case ASCII letter is rejected. -/
theorem C10_bech32_mixed_case_rejected (s : Bytes) (a b : UInt8) (ha : a ∈ s) (hb : b ∈ s)
    (hla : 97 ≤ a.toNat ∧ a.toNat ≤ 122) (hub : 65 ≤ b.toNat ∧ b.toNat ≤ 90) : ∃ m, Decode s = .err m := by
  have h1 : toUpper s ≠ s := by
    rw [Ne, toUpper_eq_self]
    intro h
    have := h a ha
    revert this hla; revert a
    have : ∀ a : UInt8, (97 ≤ a.toNat ∧ a.toNat ≤ 122) → upper8 a ≠ a := forall_byte (by decide +kernel)
    intro a _ hla; exact this a hla
  have h2 : toLower s ≠ s := by
    rw [Ne, toLower_eq_self]
    intro h
    have := h b hb
    revert this hub; revert b
    have : ∀ a : UInt8, (65 ≤ a.toNat ∧ a.toNat ≤ 90) → lower8 a ≠ a := forall_byte (by decide +kernel)
    intro b _ hub; exact this b hub
  exact ⟨_, by unfold Decode; rw [if_pos ⟨h2, h1⟩]⟩

example : ∀ c ∈ sampleStake.1 ++ 49 :: sampleStake.2, ¬ (65 ≤ c.toNat ∧ c.toNat ≤ 90) := by decide +kernel

/-! ## C11 bit regrouping -/

/-- **C11 (8 to 5).** Regrouping bytes into 5-bit groups never fails; the groups are in range and spell exactly the
bits of the input, most significant first, followed by fewer than five zero bits. -/
theorem C11_regroup_8_to_5 (d : Bytes) : ∃ out p, convertBits d 8 5 true = .ok out ∧ (∀ x ∈ out, x.toNat < 32) ∧
    p < 5 ∧ bitStream 5 out = bitStream 8 d ++ List.replicate p false := by
  have hd : ∀ x ∈ d, x.toNat < 2 ^ 8 := fun x _ => by have := UInt8.toNat_lt x; simpa using this
  obtain ⟨out, p, hc, hlt, hp, hl, hv⟩ := convert_pad 8 5 (by omega) (by omega) (by omega) d hd
  exact ⟨out, p, hc, hlt, hp, (stream_eq_iff 5 8 out d p hlt hd).2 ⟨hl, hv⟩⟩

/-- **C11 (5 to 8).** The inverse direction returns `out` exactly when the input groups are all in range and spell the
bits of `out` followed by fewer than five bits, all zero. -/
theorem C11_regroup_5_to_8 (vs out : Bytes) : convertBits vs 5 8 false = .ok out ↔
    (∀ x ∈ vs, x.toNat < 32) ∧ ∃ p, p < 5 ∧ bitStream 5 vs = bitStream 8 out ++ List.replicate p false := by
  have ho : ∀ x ∈ out, x.toNat < 2 ^ 8 := fun x _ => by have := UInt8.toNat_lt x; simpa using this
  constructor
  · intro h
    obtain ⟨h1, _, p, hp, hp5, hl, hv⟩ := convert_nopad 5 8 (by omega) (by omega) (by omega) vs out h
    exact ⟨h1, p, hp5, (stream_eq_iff 5 8 vs out p h1 ho).2 ⟨hl, hv⟩⟩
  · rintro ⟨h1, p, hp, hs⟩
    obtain ⟨hl, hv⟩ := (stream_eq_iff 5 8 vs out p h1 ho).1 hs
    exact convert_nopad_ok 5 8 (by omega) (by omega) (by omega) vs out h1 ho p (by omega) (by omega) hl hv

/-- Both sides of C11 are inhabited: 29 bytes (232 bits) become 47 groups with 3 padding bits. -/
example : (convertBits (List.replicate 29 0xe1) 8 5 true >>= fun out => convertBits out 5 8 false) =
    .ok (List.replicate 29 0xe1) := by decide +kernel

/-! ## C55 agreement with the BIP-173 code -/

/-- The six GF(32) coefficients packed in a `polymod` register, highest degree first. -/
def regOf (r : Fin 6 → Nat) : Nat :=
  ((((r 0 * 32 + r 1) * 32 + r 2) * 32 + r 3) * 32 + r 4) * 32 + r 5

theorem xor_digit (a b c d : Nat) (hb : b < 32) (hd : d < 32) :
    (a * 32 + b) ^^^ (c * 32 + d) = (a ^^^ c) * 32 + (b ^^^ d) := by
  have h1 : ((a * 32 + b) ^^^ (c * 32 + d)) / 2 ^ 5 = a ^^^ c := by
    rw [Nat.xor_div_two_pow]; congr 1 <;> omega
  have h2 : ((a * 32 + b) ^^^ (c * 32 + d)) % 2 ^ 5 = b ^^^ d := by
    rw [Nat.xor_mod_two_pow]; congr 1 <;> omega
  omega

theorem gfMul_lt : ∀ t : Fin 32, ∀ k : Fin 32, gfMul t.val k.val < 32 := by decide +kernel

/-- The constants of the code are the multiples of the generator polynomial. -/
theorem gen_table : ∀ t : Fin 32, linN (t.val <<< 25) =
    regOf (fun i => match i with
      | 0 => gfMul t.val 29 | 1 => gfMul t.val 22 | 2 => gfMul t.val 20
      | 3 => gfMul t.val 21 | 4 => gfMul t.val 29 | 5 => gfMul t.val 18) := by
  decide +kernel

theorem lin_add (t low : Nat) (ht : t < 32) (hl : low < 2 ^ 25) :
    linN (t * 2 ^ 25 + low) = (low * 32) ^^^ linN (t <<< 25) := by
  have hlow : (UInt32.ofNat low).toNat = low := by
    rw [UInt32.toNat_ofNat']; omega
  have htop : (UInt32.ofNat (t <<< 25)).toNat = t <<< 25 := by
    rw [UInt32.toNat_ofNat', Nat.shiftLeft_eq]; omega
  have h := lin_xor (UInt32.ofNat low) (UInt32.ofNat (t <<< 25))
  have h' := congrArg UInt32.toNat h
  rw [UInt32.toNat_xor, lin_toNat, UInt32.toNat_xor, lin_small _ (by rw [hlow]; exact hl), lin_toNat, hlow, htop] at h'
  rw [← h']
  refine congrArg linN ?_
  have := Nat.two_pow_add_eq_or_of_lt hl t
  rw [Nat.mul_comm t, this, Nat.shiftLeft_eq, Nat.mul_comm t]
  apply Nat.eq_of_testBit_eq
  intro i
  rw [Nat.testBit_xor, Nat.testBit_or, Nat.testBit_two_pow_mul]
  by_cases hi : i ≥ 25
  · have : low.testBit i = false :=
      Nat.testBit_lt_two_pow (Nat.lt_of_lt_of_le hl (Nat.pow_le_pow_right (by omega : 2 > 0) hi))
    simp [this]
  · simp [hi]

theorem gStep_spec (r : Fin 6 → Nat) (hr : ∀ i, r i < 32) (c : UInt32) (v : UInt8) (hv : v.toNat < 32)
    (hc : c.toNat = regOf r) : (polymodStep c v).toNat = regOf (gStep r v.toNat) ∧ ∀ i, gStep r v.toNat i < 32 := by
  have b (k : Nat) (hk : k < 32) : gfMul (r 0) k < 32 := gfMul_lt ⟨r 0, hr 0⟩ ⟨k, hk⟩
  have x5 {a b : Nat} (ha : a < 32) (hb : b < 32) : a ^^^ b < 32 := Nat.xor_lt_two_pow (n := 5) ha hb
  constructor
  · rw [step_eq, UInt32.toNat_xor, lin_toNat, hc]
    have e : regOf r = r 0 * 2 ^ 25 + ((((r 1 * 32 + r 2) * 32 + r 3) * 32 + r 4) * 32 + r 5) := by
      unfold regOf; omega
    have h1 := hr 1; have h2 := hr 2; have h3 := hr 3; have h4 := hr 4; have h5 := hr 5
    rw [e, lin_add _ _ (hr 0) (by omega)]
    have hg := gen_table ⟨r 0, hr 0⟩
    simp only [] at hg
    rw [hg]
    have hv32 : v.toUInt32.toNat = v.toNat := by simp
    rw [hv32]
    unfold regOf gStep
    simp only []
    have z : v.toNat = 0 * 32 + v.toNat := by omega
    have z2 (n : Nat) : n * 32 = n * 32 + 0 := by omega
    rw [z2 ((((r 1 * 32 + r 2) * 32 + r 3) * 32 + r 4) * 32 + r 5)]
    rw [xor_digit _ _ _ _ (by omega) (b 18 (by omega)), xor_digit _ _ _ _ h5 (b 29 (by omega)),
      xor_digit _ _ _ _ h4 (b 21 (by omega)), xor_digit _ _ _ _ h3 (b 20 (by omega)),
      xor_digit _ _ _ _ h2 (b 22 (by omega))]
    conv => lhs; rw [z]
    rw [xor_digit _ _ _ _ (x5 (by omega) (b 18 (by omega))) hv]
    simp only [Nat.zero_xor, Nat.xor_zero]
    rw [Nat.xor_comm v.toNat]
  · intro i
    match i with
    | 0 => exact x5 (hr 1) (b 29 (by omega))
    | 1 => exact x5 (hr 2) (b 22 (by omega))
    | 2 => exact x5 (hr 3) (b 20 (by omega))
    | 3 => exact x5 (hr 4) (b 21 (by omega))
    | 4 => exact x5 (hr 5) (b 29 (by omega))
    | 5 => exact x5 hv (b 18 (by omega))

theorem gFold_spec (xs : Bytes) (hx : ∀ x ∈ xs, x.toNat < 32) : ∀ (r : Fin 6 → Nat) (_ : ∀ i, r i < 32) (c : UInt32)
    (_ : c.toNat = regOf r),
    (xs.foldl polymodStep c).toNat = regOf ((xs.map UInt8.toNat).foldl gStep r) ∧
      ∀ i, (xs.map UInt8.toNat).foldl gStep r i < 32 := by
  induction xs with
  | nil => intro r hr c hc; exact ⟨hc, hr⟩
  | cons x xs ih =>
    intro r hr c hc
    obtain ⟨h1, h2⟩ := gStep_spec r hr c x (hx x List.mem_cons_self) hc
    exact ih (fun y hy => hx y (List.mem_cons_of_mem _ hy)) _ h2 _ h1

/-- **C55 (BIP-173 code).** On 5-bit symbols, `polymod` is the remainder of the polynomial with coefficients
`1, v_0, v_1, ...` over GF(32) modulo the BIP-173 generator, six 5-bit coefficients packed big-endian. -/
theorem C55_polymod_is_bch_remainder (vs : Bytes) (h : ∀ v ∈ vs, v.toNat < 32) :
    (polymod vs).toNat = regOf (gRem (1 :: vs.map UInt8.toNat)) ∧ ∀ i, gRem (1 :: vs.map UInt8.toNat) i < 32 := by
  have e : gRem (1 :: vs.map UInt8.toNat) = (vs.map UInt8.toNat).foldl gStep (gStep (fun _ => 0) 1) := rfl
  have e1 : ∀ i, gStep (fun _ => 0) 1 i = if i = 5 then 1 else 0 := by decide +kernel
  rw [e]
  exact gFold_spec vs h _ (fun i => by rw [e1]; split <;> omega) 1 (by simp only [regOf, e1]; decide)

/-- **C55 (acceptance).** A symbol string passes the checksum test exactly when the remainder is the constant
polynomial 1; the human-readable part contributes its characters' high bits, a zero, and their low five bits. -/
theorem C55_checksum_iff_remainder_one (h vs : Bytes) (hv : ∀ v ∈ vs, v.toNat < 32)
    (hlow : ∀ c ∈ h, ¬ (65 ≤ c.toNat ∧ c.toNat ≤ 90)) :
    verifyChecksum h vs = true ↔
      ∀ i, gRem ([1] ++ h.map (fun c => c.toNat / 32) ++ [0] ++ h.map (fun c => c.toNat % 32) ++ vs.map UInt8.toNat) i
        = if i = 5 then 1 else 0 := by
  have hls : toLower h = h := by
    rw [toLower_eq_self]
    intro c hc
    unfold lower8
    rw [if_neg]
    intro ⟨h1, h2⟩
    exact hlow c hc ⟨UInt8.le_iff_toNat_le.1 h1, UInt8.le_iff_toNat_le.1 h2⟩
  have hmap : (hrpExpand h ++ vs).map UInt8.toNat =
      h.map (fun c => c.toNat / 32) ++ [0] ++ h.map (fun c => c.toNat % 32) ++ vs.map UInt8.toNat := by
    unfold hrpExpand
    rw [hls]
    simp only [List.map_append, List.map_map, List.map_cons, List.map_nil]
    have k1 : ∀ c : UInt8, (goShr8 c 5).toNat = c.toNat / 32 := fun c => goShr8_toNat c 5
    have k2 : ∀ c : UInt8, (c &&& 31).toNat = c.toNat % 32 := fun c => by
      rw [UInt8.toNat_and]; exact Nat.and_two_pow_sub_one_eq_mod _ 5
    congr 4
    · funext c; exact k1 c
    · funext c; exact k2 c
  have hall : ∀ v ∈ hrpExpand h ++ vs, v.toNat < 32 := by
    intro v hm
    rcases List.mem_append.1 hm with h | h
    · exact hrpExpand_lt _ v h
    · exact hv v h
  obtain ⟨g1, g2⟩ := C55_polymod_is_bch_remainder _ hall
  rw [hmap] at g1 g2
  have happ : [1] ++ h.map (fun c => c.toNat / 32) ++ [0] ++ h.map (fun c => c.toNat % 32) ++ vs.map UInt8.toNat =
    1 :: (h.map (fun c => c.toNat / 32) ++ [0] ++ h.map (fun c => c.toNat % 32) ++ vs.map UInt8.toNat) := by simp
  rw [happ]
  generalize gRem _ = g at *
  unfold verifyChecksum
  rw [beq_iff_eq, ← UInt32.toNat_inj, g1]
  have hh := g2
  have e1 : (1 : UInt32).toNat = 1 := rfl
  rw [e1]
  constructor
  · intro hr i
    have := hh 0; have := hh 1; have := hh 2; have := hh 3; have := hh 4; have := hh 5
    unfold regOf at hr
    match i with
    | 0 => simp; omega
    | 1 => simp; omega
    | 2 => simp; omega
    | 3 => simp; omega
    | 4 => simp; omega
    | 5 => simp; omega
  · intro hr
    unfold regOf
    simp [hr]

/-- The GF(32) of the specification is the field of BIP-173: `x` generates all 31 nonzero elements. -/
example : ((List.range 31).map fun k => Nat.repeat (gfMul 2) k 1).Nodup ∧ Nat.repeat (gfMul 2) 31 1 = 1 := by
  decide +kernel

end Cardano.Props
