import Verif.Bech32.Unicode
/-!
# Runes of strings: lemmas
-/
set_option autoImplicit false

namespace Cardano.Bech32.Uni

/-- All bytes below 128. -/
def Ascii (s : Bytes) : Prop := ∀ b ∈ s, b < 0x80

theorem runes_nil : runes [] = [] := by rw [runes]

theorem runes_ascii_cons (b : UInt8) (s : Bytes) (h : b < 0x80) : runes (b :: s) = b.toNat :: runes s := by rw [runes, if_pos h]

theorem runes_high_cons (b : UInt8) (s : Bytes) (h : ¬ b < 0x80) :
    runes (b :: s) = (decodeMulti b s).1 :: runes (s.drop (decodeMulti b s).2) := by rw [runes, if_neg h]

theorem runes_append (a s : Bytes) (h : Ascii a) : runes (a ++ s) = a.map UInt8.toNat ++ runes s := by
  induction a with
  | nil => rfl
  | cons b a ih =>
    rw [List.cons_append, runes_ascii_cons _ _ (h b (by simp)), ih (fun x hx => h x (by simp [hx]))]; rfl

theorem runes_ascii (s : Bytes) (h : Ascii s) : runes s = s.map UInt8.toNat := by
  have := runes_append s [] h
  simpa [runes_nil] using this

theorem decodeMulti_ge (b : UInt8) (s : Bytes) : 0x80 ≤ (decodeMulti b s).1 := by
  have hr : 0x80 ≤ runeError := by decide
  unfold decodeMulti
  split
  · rename_i hb
    have h1 : 0xc2 ≤ b.toNat := hb.1
    split
    · split
      · show 0x80 ≤ (b.toNat - 0xc0) * 64 + _
        omega
      · exact hr
    · exact hr
  · split
    · rename_i hb
      have h1 : 0xe0 ≤ b.toNat := hb.1
      split
      · rename_i b1 b2 _
        split
        · rename_i hc
          simp only [Bool.and_eq_true, Bool.or_eq_true, decide_eq_true_eq, bne_iff_ne, ne_eq] at hc
          show 0x80 ≤ (b.toNat - 0xe0) * 4096 + (b1.toNat - 0x80) * 64 + _
          rcases hc.1.2 with h | h
          · have : b.toNat ≠ 0xe0 := fun e => h (UInt8.toNat_inj.1 e)
            omega
          · have h2 : 0xa0 ≤ b1.toNat := h
            omega
        · exact hr
      · exact hr
    · split
      · rename_i hb
        have h1 : 0xf0 ≤ b.toNat := hb.1
        split
        · rename_i b1 b2 b3 _
          split
          · rename_i hc
            simp only [Bool.and_eq_true, Bool.or_eq_true, decide_eq_true_eq, bne_iff_ne, ne_eq] at hc
            show 0x80 ≤ (b.toNat - 0xf0) * 262144 + (b1.toNat - 0x80) * 4096 + (b2.toNat - 0x80) * 64 + _
            rcases hc.1.2 with h | h
            · have : b.toNat ≠ 0xf0 := fun e => h (UInt8.toNat_inj.1 e)
              omega
            · have h2 : 0x90 ≤ b1.toNat := h
              omega
          · exact hr
        · exact hr
      · exact hr

/-- If all runes are ASCII so are all bytes. -/
theorem ascii_of_runes : ∀ s : Bytes, (∀ r ∈ runes s, r < 0x80) → Ascii s
  | [], _ => by simp [Ascii]
  | b :: s, h => by
    by_cases hb : b < 0x80
    · rw [runes_ascii_cons _ _ hb] at h
      have := ascii_of_runes s (fun r hr => h r (by simp [hr]))
      intro x hx
      rcases List.mem_cons.1 hx with rfl | hx
      · exact hb
      · exact this x hx
    · rw [runes_high_cons _ _ hb] at h
      have := h _ (List.mem_cons_self ..)
      have := decodeMulti_ge b s
      omega

theorem ofNat_toNat8 (b : UInt8) : UInt8.ofNat b.toNat = b := by simp

theorem lower_eq (T : Tables) (b : UInt8) (h : b < 0x80) : encodeRune (T.lower b.toNat) = [lower8 b] := by
  have h' : b.toNat < 128 := h
  rw [T.lower_ascii _ h']
  revert h h'
  apply forall_byte (p := fun b => b < 0x80 → b.toNat < 128 → encodeRune (if 65 ≤ b.toNat ∧ b.toNat ≤ 90 then b.toNat + 32 else b.toNat) = [lower8 b])
  decide +kernel

theorem upper_eq (T : Tables) (b : UInt8) (h : b < 0x80) : encodeRune (T.upper b.toNat) = [upper8 b] := by
  have h' : b.toNat < 128 := h
  rw [T.upper_ascii _ h']
  revert h h'
  apply forall_byte (p := fun b => b < 0x80 → b.toNat < 128 → encodeRune (if 97 ≤ b.toNat ∧ b.toNat ≤ 122 then b.toNat - 32 else b.toNat) = [upper8 b])
  decide +kernel

theorem lower8_ascii (b : UInt8) : b < 0x80 → lower8 b < 0x80 := by
  apply forall_byte (p := fun b => b < 0x80 → lower8 b < 0x80); decide +kernel

theorem mapLower_append (T : Tables) (a s : Bytes) (h : Ascii a) : mapRunes T.lower (a ++ s) = toLower a ++ mapRunes T.lower s := by
  rw [mapRunes, runes_append _ _ h, List.flatMap_append]
  congr 1
  induction a with
  | nil => rfl
  | cons b a ih =>
    rw [List.map_cons, List.flatMap_cons, lower_eq T b (h b (by simp)), ih (fun x hx => h x (by simp [hx]))]; rfl

theorem mapUpper_append (T : Tables) (a s : Bytes) (h : Ascii a) : mapRunes T.upper (a ++ s) = toUpper a ++ mapRunes T.upper s := by
  rw [mapRunes, runes_append _ _ h, List.flatMap_append]
  congr 1
  induction a with
  | nil => rfl
  | cons b a ih =>
    rw [List.map_cons, List.flatMap_cons, upper_eq T b (h b (by simp)), ih (fun x hx => h x (by simp [hx]))]; rfl

/-- On ASCII strings `strings.ToLower` and `strings.ToUpper` act byte by byte. -/
theorem mapRunes_ascii (T : Tables) (s : Bytes) (h : Ascii s) : mapRunes T.lower s = toLower s ∧ mapRunes T.upper s = toUpper s := by
  constructor
  · have := mapLower_append T s [] h; simpa [mapRunes, runes_nil] using this
  · have := mapUpper_append T s [] h; simpa [mapRunes, runes_nil] using this

theorem toLower_ascii (s : Bytes) (h : Ascii s) : Ascii (toLower s) := by
  intro b hb
  obtain ⟨c, hc, rfl⟩ := List.mem_map.1 hb
  exact lower8_ascii c (h c hc)

theorem ascii_of_hrpCharsOk (s : Bytes) (h : hrpCharsOk s = true) : Ascii s := by
  intro b hb
  have := List.all_eq_true.1 h b hb
  simp only [Bool.and_eq_true, decide_eq_true_eq] at this
  have h2 : b.toNat ≤ 126 := this.2
  show b.toNat < 128
  omega

/-- The check of the human-readable part on runes is the one on bytes, for every string. -/
theorem hrpRunesOk_eq (s : Bytes) : hrpRunesOk s = hrpCharsOk s := by
  have key : Ascii s → hrpRunesOk s = hrpCharsOk s := by
    intro h
    rw [hrpRunesOk, runes_ascii s h, hrpCharsOk, List.all_map]; rfl
  by_cases h : Ascii s
  · exact key h
  · have h1 : hrpCharsOk s = false := by
      cases e : hrpCharsOk s with
      | false => rfl
      | true => exact absurd (ascii_of_hrpCharsOk s e) h
    rw [h1]
    cases e : hrpRunesOk s with
    | false => rfl
    | true =>
      refine absurd (ascii_of_runes s fun r hr => ?_) h
      have := List.all_eq_true.1 e r hr
      simp only [Bool.and_eq_true, decide_eq_true_eq] at this
      omega

theorem readRunes_ascii (s : Bytes) (h : Ascii s) : readRunes (s.map UInt8.toNat) = readSyms s := by
  induction s with
  | nil => rfl
  | cons b s ih =>
    have hb : b.toNat < 128 := h b (by simp)
    rw [List.map_cons, readRunes, readSyms, runeIndex, if_pos hb, ofNat_toNat8, ih (fun x hx => h x (by simp [hx]))]
    cases charIndex b <;> rfl

/-- What `readRunes` accepts are runes below 128. -/
theorem readRunes_ok (l : List Nat) (d : Bytes) (h : readRunes l = .ok d) : ∀ r ∈ l, r < 128 ∧ (charIndex (UInt8.ofNat r)).isSome := by
  induction l generalizing d with
  | nil => simp
  | cons c l ih =>
    rw [readRunes] at h
    unfold runeIndex at h
    by_cases hc : c < 128
    · rw [if_pos hc] at h
      cases e : charIndex (UInt8.ofNat c) with
      | none => rw [e] at h; simp at h
      | some x =>
        rw [e] at h
        dsimp only at h
        cases e2 : readRunes l with
        | ok ds =>
          intro r hr
          rcases List.mem_cons.1 hr with rfl | hr
          · exact ⟨hc, by simp [e]⟩
          · exact ih ds e2 r hr
        | err m => rw [e2] at h; exact absurd h (by intro h; cases h)
        | panic => rw [e2] at h; exact absurd h (by intro h; cases h)
    · rw [if_neg hc] at h; simp at h

theorem readSyms_length (s d : Bytes) (h : readSyms s = .ok d) : d.length = s.length := by
  induction s generalizing d with
  | nil => cases h; rfl
  | cons c s ih =>
    rw [readSyms] at h
    cases e : charIndex c with
    | none => rw [e] at h; simp at h
    | some x =>
      rw [e] at h
      dsimp only at h
      cases e2 : readSyms s with
      | ok ds => rw [e2] at h; cases h; simp [ih ds e2]
      | err m => rw [e2] at h; exact absurd h (by intro h; cases h)
      | panic => rw [e2] at h; exact absurd h (by intro h; cases h)

theorem readSyms_no_panic (s : Bytes) : readSyms s ≠ .panic := by
  induction s with
  | nil => simp [readSyms]
  | cons c s ih =>
    rw [readSyms]
    cases charIndex c with
    | none => simp
    | some x =>
      dsimp only
      cases e2 : readSyms s with
      | ok ds => intro h; cases h
      | err m => intro h; cases h
      | panic => exact absurd e2 ih

theorem lastIndex1_lt : ∀ (s : Bytes) (p : Nat), lastIndex1 s = some p → p < s.length
  | [], _, h => by simp [lastIndex1] at h
  | c :: s, p, h => by
    rw [lastIndex1] at h
    cases e : lastIndex1 s with
    | some i => rw [e] at h; cases h; have := lastIndex1_lt s i e; simp; omega
    | none =>
      rw [e] at h
      dsimp only at h
      split at h
      · cases h; simp
      · cases h

/-- The string before and after the last `1`. -/
theorem lastIndex1_split : ∀ (s : Bytes) (p : Nat), lastIndex1 s = some p → s = s.take p ++ 49 :: s.drop (p + 1) ∧ (49 : UInt8) ∉ s.drop (p + 1)
  | [], _, h => by simp [lastIndex1] at h
  | c :: s, p, h => by
    rw [lastIndex1] at h
    cases e : lastIndex1 s with
    | some i =>
      rw [e] at h; cases h
      have := lastIndex1_split s i e
      constructor
      · simpa using this.1
      · simpa using this.2
    | none =>
      rw [e] at h
      dsimp only at h
      split at h
      · cases h
        rename_i hc; subst hc
        refine ⟨by simp, ?_⟩
        have : ∀ l : Bytes, lastIndex1 l = none → (49 : UInt8) ∉ l := by
          intro l
          induction l with
          | nil => simp
          | cons x l ih =>
            intro h
            rw [lastIndex1] at h
            cases e : lastIndex1 l with
            | some i => rw [e] at h; simp at h
            | none =>
              rw [e] at h
              dsimp only at h
              split at h
              · cases h
              · rename_i hx; simp [ih e, Ne.symm hx]
        simpa using this s e
      · cases h

theorem lastIndex1_join : ∀ (h d : Bytes), (49 : UInt8) ∉ d → lastIndex1 (h ++ 49 :: d) = some h.length
  | [], d, hd => by
    have : ∀ l : Bytes, (49 : UInt8) ∉ l → lastIndex1 l = none := by
      intro l
      induction l with
      | nil => intro _; rfl
      | cons x l ih =>
        intro h
        simp only [List.mem_cons, not_or] at h
        rw [lastIndex1, ih h.2]
        dsimp only
        rw [if_neg (Ne.symm h.1)]
    rw [List.nil_append, lastIndex1, this d hd]; rfl
  | c :: h, d, hd => by rw [List.cons_append, lastIndex1, lastIndex1_join h d hd]; rfl

theorem hrpExpand_ascii (T : Tables) (hrp : Bytes) (h : Ascii hrp) : hrpExpand T hrp = Bech32.hrpExpand hrp := by
  rw [hrpExpand, (mapRunes_ascii T hrp h).1]; rfl

/-- On ASCII strings the rune model is the byte model. -/
theorem Decode_ascii (T : Tables) (s : Bytes) (h : Ascii s) : Decode T s = Bech32.Decode s := by
  unfold Decode Bech32.Decode
  rw [(mapRunes_ascii T s h).1, (mapRunes_ascii T s h).2]
  split
  · rfl
  · cases e : lastIndex1 s with
    | none => rfl
    | some pos =>
      dsimp only
      split
      · rfl
      · rename_i hp
        have hp : ¬ pos < 1 ∧ ¬ pos + 7 > s.length := not_or.1 hp
        rw [hrpRunesOk_eq]
        split
        · rfl
        · have ha : Ascii (s.take pos) := fun b hb => h b (List.mem_of_mem_take hb)
          have hd : Ascii ((toLower s).drop (pos + 1)) := fun b hb => toLower_ascii s h b (List.mem_of_mem_drop hb)
          rw [runes_ascii _ hd, readRunes_ascii _ hd]
          cases e2 : readSyms ((toLower s).drop (pos + 1)) with
          | ok d =>
            have hl : d.length = s.length - (pos + 1) := by rw [readSyms_length _ _ e2, List.length_drop, toLower, List.length_map]
            show (if (!verifyChecksum T (s.take pos) d) = true then _ else if d.length < 6 then _ else _) = _
            rw [if_neg (show ¬ d.length < 6 by omega), verifyChecksum, hrpExpand_ascii T _ ha]
            rfl
          | err m => rfl
          | panic => rfl

theorem charset_ascii : Ascii charset := by unfold Ascii; decide +kernel

theorem writeSyms_ascii (l r : Bytes) (h : writeSyms l = .ok r) : Ascii r := by
  induction l generalizing r with
  | nil => cases h; simp [Ascii]
  | cons p l ih =>
    rw [writeSyms] at h
    unfold charAt at h
    cases e : charset[p.toNat]? with
    | none => rw [e] at h; cases h
    | some c =>
      rw [e] at h
      cases e2 : writeSyms l with
      | err m => rw [e2] at h; cases h
      | panic => rw [e2] at h; cases h
      | ok cs =>
        rw [e2] at h
        cases h
        intro b hb
        rcases List.mem_cons.1 hb with rfl | hb
        · exact charset_ascii _ (List.mem_of_getElem? e)
        · exact ih cs e2 b hb

/-- `Encode` is the same on all strings. -/
theorem Encode_eq (T : Tables) (hrp data : Bytes) : Encode T hrp data = Bech32.Encode hrp data := by
  unfold Encode Bech32.Encode
  rw [hrpRunesOk_eq]
  cases convertBits data 8 5 true with
  | err m => rfl
  | panic => rfl
  | ok values =>
    show (if hrp.length < 1 then _ else _) = (if hrp.length < 1 then _ else _)
    split
    · rfl
    · by_cases hc : hrpCharsOk hrp = true
      · have ha := ascii_of_hrpCharsOk hrp hc
        rw [(mapRunes_ascii T hrp ha).1, (mapRunes_ascii T hrp ha).2]
        have hx : createChecksum T (toLower hrp) values = Bech32.createChecksum (toLower hrp) values := by
          rw [createChecksum, hrpExpand_ascii T _ (toLower_ascii hrp ha)]; rfl
        dsimp only
        rw [hx]
        split
        · rfl
        · split
          · rfl
          · cases e1 : writeSyms values with
            | err m => rfl
            | panic => rfl
            | ok body =>
              cases e2 : writeSyms (Bech32.createChecksum (toLower hrp) values) with
              | err m => rfl
              | panic => rfl
              | ok chk =>
                have hr : Ascii (toLower hrp ++ [49] ++ body ++ chk) := by
                  intro b hb
                  simp only [List.mem_append, List.mem_singleton] at hb
                  rcases hb with ((hb | rfl) | hb) | hb
                  · exact toLower_ascii hrp ha b hb
                  · decide
                  · exact writeSyms_ascii _ _ e1 b hb
                  · exact writeSyms_ascii _ _ e2 b hb
                show (if _ then _ else pure (mapRunes T.upper (toLower hrp ++ [49] ++ body ++ chk))) = _
                rw [(mapRunes_ascii T _ hr).2]
                rfl
      · have : (!hrpCharsOk hrp) = true := by simpa using hc
        rw [if_pos this, if_pos this]

end Cardano.Bech32.Uni
