import Verif.Bech32.UnicodeProofs
import Verif.Props.Formats
/-!
# C72, C73: strings that are not ASCII

Go strings are arbitrary byte sequences. `Bech32/Unicode` models the code on all of them; the other theorems on texts are about `Bech32/Model`, which
maps letters byte by byte. C72 says that for `NewAddress` there is no difference; C73 that for `bech32.Decode` there is exactly one.
-/
set_option autoImplicit false

namespace Cardano.Bech32.Uni

/-- bech32.go:136-151, the part of `Decode` after the checks on the human-readable part; `l` are the runes of the data part. -/
def body (T : Tables) (h : Bytes) (l : List Nat) : Res (Bytes × Bytes) := do
  let data ← readRunes l
  if ! verifyChecksum T h data then .err "invalid checksum"
  else if data.length < 6 then .panic
  else
    let data ← convertBits (data.take (data.length - 6)) 5 8 false
    return (h, data)

theorem lower8_one : lower8 49 = 49 := by decide
theorem upper8_one : upper8 49 = 49 := by decide

theorem lower_join (T : Tables) (h e : Bytes) (ha : Ascii h) : mapRunes T.lower (h ++ 49 :: e) = toLower h ++ 49 :: mapRunes T.lower e := by
  rw [mapLower_append T _ _ ha]
  have := mapLower_append T [49] e (by simp [Ascii])
  rw [List.singleton_append] at this
  rw [this]; rfl

theorem upper_join (T : Tables) (h e : Bytes) (ha : Ascii h) : mapRunes T.upper (h ++ 49 :: e) = toUpper h ++ 49 :: mapRunes T.upper e := by
  rw [mapUpper_append T _ _ ha]
  have := mapUpper_append T [49] e (by simp [Ascii])
  rw [List.singleton_append] at this
  rw [this]; rfl

theorem decode_join (T : Tables) (h e : Bytes) (ha : Ascii h) (he : (49 : UInt8) ∉ e) :
    Decode T (h ++ 49 :: e) =
      if (toLower h ++ 49 :: mapRunes T.lower e ≠ h ++ 49 :: e) ∧ (toUpper h ++ 49 :: mapRunes T.upper e ≠ h ++ 49 :: e) then .err "mixed case"
      else if h.length < 1 ∨ h.length + 7 > (h ++ 49 :: e).length then .err "separator '1' at invalid position"
      else if ! hrpCharsOk h then .err "invalid character human-readable part"
      else body T h (runes (mapRunes T.lower e)) := by
  unfold Decode
  rw [lower_join T h e ha, upper_join T h e ha, lastIndex1_join h e he]
  dsimp only
  have h1 : (h ++ 49 :: e).take h.length = h := by simp
  have h2 : (toLower h ++ 49 :: mapRunes T.lower e).drop (h.length + 1) = mapRunes T.lower e := by
    have : h.length = (toLower h).length := by simp [toLower]
    rw [this, ← List.drop_drop]; simp
  rw [h1, h2, hrpRunesOk_eq]
  rfl

/-- A string in which some letters `K` of an ASCII string are written as U+212A, KELVIN SIGN (bytes e2 84 aa). -/
inductive Kelvin : Bytes → Bytes → Prop
  | nil : Kelvin [] []
  | same (b : UInt8) (s t : Bytes) : b < 0x80 → Kelvin s t → Kelvin (b :: s) (b :: t)
  | sign (s t : Bytes) : Kelvin s t → Kelvin (0xe2 :: 0x84 :: 0xaa :: s) (75 :: t)

theorem runes_sign (s : Bytes) : runes (0xe2 :: 0x84 :: 0xaa :: s) = 0x212a :: runes s := by
  rw [runes_high_cons _ _ (by decide)]; rfl

theorem Kelvin.ascii {s t : Bytes} (h : Kelvin s t) : Ascii t := by
  induction h with
  | nil => simp [Ascii]
  | same b s t hb _ ih =>
    intro x hx
    rcases List.mem_cons.1 hx with rfl | hx
    · exact hb
    · exact ih x hx
  | sign s t _ ih =>
    intro x hx
    rcases List.mem_cons.1 hx with rfl | hx
    · decide
    · exact ih x hx

theorem Kelvin.lower (T : Tables) {s t : Bytes} (h : Kelvin s t) : mapRunes T.lower s = toLower t := by
  induction h with
  | nil => simp [mapRunes, runes_nil, toLower]
  | same b s t hb _ ih =>
    rw [mapRunes, runes_ascii_cons _ _ hb, List.flatMap_cons, lower_eq T b hb]
    rw [mapRunes] at ih
    rw [ih]; rfl
  | sign s t _ ih =>
    rw [mapRunes, runes_sign, List.flatMap_cons, T.lower_kelvin]
    rw [mapRunes] at ih
    rw [ih]; rfl

theorem Kelvin.upper (T : Tables) {s t : Bytes} (h : Kelvin s t) : mapRunes T.upper s = s ↔ toUpper t = t := by
  induction h with
  | nil => simp [mapRunes, runes_nil, toUpper]
  | same b s t hb _ ih =>
    rw [mapRunes, runes_ascii_cons _ _ hb, List.flatMap_cons, upper_eq T b hb]
    rw [mapRunes] at ih
    rw [toUpper] at ih
    rw [toUpper, List.map_cons, List.singleton_append, List.cons.injEq, List.cons.injEq, ih]
  | sign s t _ ih =>
    rw [mapRunes, runes_sign, List.flatMap_cons, T.upper_kelvin]
    rw [mapRunes] at ih
    rw [toUpper] at ih
    have h1 : encodeRune 0x212a = [0xe2, 0x84, 0xaa] := by decide
    have h2 : upper8 75 = 75 := by decide
    rw [h1, toUpper, List.map_cons, h2]
    simp only [List.cons_append, List.nil_append, List.cons.injEq, true_and]
    exact ih

theorem Kelvin.mem (c : UInt8) (hc : c < 0x80) (hk : c ≠ 75) {s t : Bytes} (h : Kelvin s t) : c ∈ s ↔ c ∈ t := by
  induction h with
  | nil => simp
  | same b s t hb _ ih => simp [ih]
  | sign s t _ ih =>
    have h1 : c ≠ 0xe2 := by rintro rfl; exact absurd hc (by decide)
    have h2 : c ≠ 0x84 := by rintro rfl; exact absurd hc (by decide)
    have h3 : c ≠ 0xaa := by rintro rfl; exact absurd hc (by decide)
    simp [ih, h1, h2, h3, hk]

theorem Kelvin.length {s t : Bytes} (h : Kelvin s t) : t.length ≤ s.length := by
  induction h with
  | nil => simp
  | same b s t hb _ ih => simp; omega
  | sign s t _ ih => simp; omega

theorem Kelvin.eq_of_ascii {s t : Bytes} (h : Kelvin s t) (ha : Ascii s) : s = t := by
  induction h with
  | nil => rfl
  | same b s t hb _ ih => rw [ih fun x hx => ha x (by simp [hx])]
  | sign s t _ ih => exact absurd (ha 0xe2 (by simp)) (by decide)

/-- The only spelling of U+212A. -/
theorem decodeMulti_kelvin (b : UInt8) (s : Bytes) (h : (decodeMulti b s).1 = 0x212a) :
    ∃ s', b = 0xe2 ∧ s = 0x84 :: 0xaa :: s' ∧ (decodeMulti b s).2 = 2 := by
  have hr : runeError ≠ 0x212a := by decide
  unfold decodeMulti at h ⊢
  split at h
  · rename_i hb
    have h1 : b.toNat ≤ 0xdf := hb.2
    exfalso
    split at h
    · rename_i b1 _
      split at h
      · rename_i hc
        simp only [cont, Bool.and_eq_true, decide_eq_true_eq] at hc
        have h2 : b1.toNat ≤ 0xbf := hc.2
        simp only at h
        omega
      · exact hr h
    · exact hr h
  · rename_i hn
    split at h
    · rename_i hb
      have g1 : 0xe0 ≤ b.toNat := hb.1
      split at h
      · rename_i b1 b2 s'
        split at h
        · rename_i hc
          have hc0 := hc
          simp only [cont, Bool.and_eq_true, decide_eq_true_eq] at hc
          have h2 : b1.toNat ≤ 0xbf := hc.1.1.1.2
          have h3 : b2.toNat ≤ 0xbf := hc.1.1.2.2
          have h4 : 0x80 ≤ b1.toNat := hc.1.1.1.1
          have h5 : 0x80 ≤ b2.toNat := hc.1.1.2.1
          simp only at h
          have e0 : b.toNat = 0xe2 := by omega
          have e1 : b1.toNat = 0x84 := by omega
          have e2 : b2.toNat = 0xaa := by omega
          have e0 : b = 0xe2 := UInt8.toNat_inj.1 e0
          have e1 : b1 = 0x84 := UInt8.toNat_inj.1 e1
          have e2 : b2 = 0xaa := UInt8.toNat_inj.1 e2
          subst e0 e1 e2
          exact ⟨s', rfl, rfl, rfl⟩
        · exact absurd h hr
      · exact absurd h hr
    · exfalso
      split at h
      · rename_i hb
        have g1 : 0xf0 ≤ b.toNat := hb.1
        split at h
        · rename_i b1 b2 b3 _
          split at h
          · rename_i hc
            simp only [Bool.and_eq_true, Bool.or_eq_true, decide_eq_true_eq, bne_iff_ne, ne_eq] at hc
            simp only at h
            rcases hc.1.2 with h' | h'
            · have : b.toNat ≠ 0xf0 := fun e => h' (UInt8.toNat_inj.1 e)
              omega
            · have h2 : 0x90 ≤ b1.toNat := h'
              omega
          · exact hr h
        · exact hr h
      · exact hr h

theorem kelvin_of_runes : ∀ (s : Bytes), (∀ r ∈ runes s, r < 128 ∨ r = 0x212a) → ∃ t, Kelvin s t
  | [], _ => ⟨[], .nil⟩
  | b :: s, h => by
    by_cases hb : b < 0x80
    · rw [runes_ascii_cons _ _ hb] at h
      obtain ⟨t, ht⟩ := kelvin_of_runes s fun r hr => h r (by simp [hr])
      exact ⟨b :: t, .same b s t hb ht⟩
    · rw [runes_high_cons _ _ hb] at h
      have h0 := decodeMulti_ge b s
      have h1 : (decodeMulti b s).1 = 0x212a := by
        rcases h _ (List.mem_cons_self ..) with h | h
        · omega
        · exact h
      obtain ⟨s', rfl, rfl, h2⟩ := decodeMulti_kelvin b s h1
      rw [h2] at h
      obtain ⟨t, ht⟩ := kelvin_of_runes s' fun r hr => h r (by simp at hr ⊢; exact .inr hr)
      exact ⟨75 :: t, .sign s' t ht⟩
termination_by s => s.length

theorem encodeRune_ascii (r : Nat) (h : Ascii (encodeRune r)) : r < 128 := by
  by_cases hr : r < 128
  · exact hr
  · exfalso
    unfold encodeRune at h
    rw [if_neg hr] at h
    have key : ∀ n, 0x80 ≤ n → n < 256 → ¬ UInt8.ofNat n < 0x80 := by
      intro n h1 h2 h3
      have : (UInt8.ofNat n).toNat < 128 := h3
      rw [UInt8.toNat_ofNat'] at this
      omega
    split at h
    · exact key _ (by omega) (by omega) (h _ (List.mem_cons_self ..))
    · split at h
      · exact absurd (h _ (List.mem_cons_self ..)) (by decide)
      · split at h
        · exact key _ (by omega) (by omega) (h _ (List.mem_cons_self ..))
        · rename_i h3 _
          exact key _ (by omega) (by omega) (h _ (List.mem_cons_self ..))

/-- If the data part is accepted, its runes are ASCII or U+212A. -/
theorem data_runes (T : Tables) (e d : Bytes) (h : readRunes (runes (mapRunes T.lower e)) = .ok d) : ∀ r ∈ runes e, r < 128 ∨ r = 0x212a := by
  have h0 := readRunes_ok _ _ h
  have ha : Ascii (mapRunes T.lower e) := ascii_of_runes _ fun r hr => (h0 r hr).1
  intro r hr
  have hsub : ∀ b ∈ encodeRune (T.lower r), b ∈ mapRunes T.lower e := fun b hb => List.mem_flatMap.2 ⟨r, hr, hb⟩
  have h1 : T.lower r < 128 := encodeRune_ascii _ fun b hb => ha b (hsub b hb)
  by_cases h2 : r < 128
  · exact .inl h2
  · rcases T.lower_high r (by omega) h1 with h3 | h3
    · exact .inr h3
    · exfalso
      subst h3
      rw [T.lower_dotted] at hsub
      have h4 : (105 : UInt8) ∈ mapRunes T.lower e := hsub 105 (by decide)
      rw [runes_ascii _ ha] at h0
      have := (h0 105 (List.mem_map.2 ⟨105, h4, rfl⟩)).2
      revert this; decide

theorem body_ok (T : Tables) (h : Bytes) (l : List Nat) (x : Bytes × Bytes) (e : body T h l = .ok x) : ∃ d, readRunes l = .ok d ∧ 6 ≤ d.length := by
  unfold body at e
  cases e2 : readRunes l with
  | err m => rw [e2] at e; cases e
  | panic => rw [e2] at e; cases e
  | ok d =>
    rw [e2] at e
    refine ⟨d, rfl, ?_⟩
    change (if (!verifyChecksum T h d) = true then _ else if d.length < 6 then _ else _) = _ at e
    split at e
    · cases e
    · split at e
      · cases e
      · omega

end Cardano.Bech32.Uni

namespace Cardano.Props
open Bech32 Bech32.Uni

theorem chr_ascii (v : UInt8) : chr v < 0x80 := by
  revert v
  exact forall_byte (by decide +kernel)

theorem ascii_of_lower8 (c : UInt8) : lower8 c < 0x80 → c < 0x80 := by
  revert c
  exact forall_byte (by decide +kernel)

/-- What the byte model accepts is ASCII. -/
theorem ascii_of_decode (s : Bytes) (x : Bytes × Bytes) (h : Bech32.Decode s = .ok x) : Ascii s := by
  obtain ⟨cs, vs, e, -, -, -, hok, -, hcs, -⟩ := decode_ok s x.1 x.2 h
  intro b hb
  rw [e] at hb
  rcases List.mem_append.1 hb with hb | hb
  · exact ascii_of_hrpCharsOk _ hok b hb
  · rcases List.mem_cons.1 hb with rfl | hb
    · decide
    · have : lower8 b ∈ toLower cs := List.mem_map.2 ⟨b, hb, rfl⟩
      rw [hcs] at this
      obtain ⟨v, -, hv⟩ := List.mem_map.1 this
      exact ascii_of_lower8 b (hv ▸ chr_ascii v)

theorem decode_err_of_not_ascii (s : Bytes) (h : ¬ Ascii s) : ∃ m, Bech32.Decode s = .err m := by
  cases e : Bech32.Decode s with
  | ok x => exact absurd (ascii_of_decode s x e) h
  | err m => exact ⟨m, rfl⟩
  | panic => exact absurd e (decode_not_panic s)

/-- The first letter of the prefixes is lower case, which excludes the sign. -/
theorem decode_uni_err (T : Tables) (c : UInt8) (s : Bytes) (hc : c < 0x80) (hu : upper8 c ≠ c) (h : ¬ Ascii (c :: s)) :
    ∃ m, Uni.Decode T (c :: s) = .err m := by
  have hup : mapRunes T.upper (c :: s) ≠ c :: s := by
    have := mapUpper_append T [c] s (by simpa [Ascii] using hc)
    rw [List.singleton_append] at this
    rw [this]
    intro e
    exact hu (List.cons.inj e).1
  cases el : lastIndex1 (c :: s) with
  | none =>
    unfold Uni.Decode
    split
    · exact ⟨_, rfl⟩
    · rw [el]; exact ⟨_, rfl⟩
  | some pos =>
    obtain ⟨e1, e2⟩ := lastIndex1_split _ _ el
    by_cases ha : Ascii ((c :: s).take pos)
    · generalize (c :: s).take pos = h0 at *
      generalize (c :: s).drop (pos + 1) = d0 at *
      rw [e1, decode_join T h0 d0 ha e2]
      split
      · exact ⟨_, rfl⟩
      · rename_i hm
        split
        · exact ⟨_, rfl⟩
        · split
          · exact ⟨_, rfl⟩
          · have hl : mapRunes T.lower (c :: s) = c :: s := by
              rw [← lower_join T h0 d0 ha, ← upper_join T h0 d0 ha, ← e1] at hm
              exact Classical.byContradiction fun h' => hm ⟨h', hup⟩
            rw [e1, lower_join T h0 d0 ha] at hl
            have hlen : (toLower h0).length = h0.length := by simp [toLower]
            have hd : mapRunes T.lower d0 = d0 := (List.cons.inj (List.append_inj hl hlen).2).2
            rw [hd]
            have hna : ¬ Ascii d0 := fun hd0 => h (by
              rw [e1]; intro b hb
              rcases List.mem_append.1 hb with hb | hb
              · exact ha b hb
              · rcases List.mem_cons.1 hb with rfl | hb
                · decide
                · exact hd0 b hb)
            unfold body
            cases er : readRunes (runes d0) with
            | err m => exact ⟨m, rfl⟩
            | panic =>
              exfalso
              have : ∀ l, readRunes l ≠ .panic := by
                intro l
                induction l with
                | nil => simp [readRunes]
                | cons r l ih =>
                  rw [readRunes]
                  cases runeIndex r with
                  | none => simp
                  | some x =>
                    dsimp only
                    cases e2 : readRunes l with
                    | ok ds => intro h; cases h
                    | err m => intro h; cases h
                    | panic => exact absurd e2 ih
              exact this _ er
            | ok d => exact absurd (ascii_of_runes d0 fun r hr => (readRunes_ok _ _ er r hr).1) hna
    · unfold Uni.Decode
      split
      · exact ⟨_, rfl⟩
      · rw [el]
        dsimp only
        split
        · exact ⟨_, rfl⟩
        · rw [hrpRunesOk_eq]
          have : hrpCharsOk ((c :: s).take pos) = false := by
            cases e : hrpCharsOk ((c :: s).take pos) with
            | false => rfl
            | true => exact absurd (ascii_of_hrpCharsOk _ e) ha
          rw [this]
          exact ⟨_, rfl⟩

theorem prefix_head (raw : Bytes) (h : (Addr.hasPrefix raw (asc ['a','d','d','r']) || Addr.hasPrefix raw (asc ['s','t','a','k','e'])) = true) :
    ∃ c s, raw = c :: s ∧ c < 0x80 ∧ upper8 c ≠ c := by
  cases raw with
  | nil => exact absurd h (by decide)
  | cons c s =>
    refine ⟨c, s, rfl, ?_⟩
    simp only [Addr.hasPrefix, Bool.or_eq_true, beq_iff_eq] at h
    rcases h with h | h
    · have h1 : c = 97 := (List.cons.inj h).1
      subst h1; decide
    · have h1 : c = 115 := (List.cons.inj h).1
      subst h1; decide

/-- **C72.** For every sequence of bytes and whatever the Unicode case tables contain beyond the listed entries, `NewAddress` on Go strings accepts what
the byte-wise model accepts, with the same address, and panics on the same inputs. So the theorems on `NewAddress` hold for all strings. -/
theorem C72_new_address_any_string (T : Tables) (strict : Bool) (raw spare : Bytes) :
    (∀ a, Uni.NewAddress T strict raw spare = .ok a ↔ Addr.NewAddress strict raw spare = .ok a) ∧
    (Uni.NewAddress T strict raw spare = .panic ↔ Addr.NewAddress strict raw spare = .panic) := by
  by_cases h : Ascii raw
  · have : Uni.NewAddress T strict raw spare = Addr.NewAddress strict raw spare := by
      unfold Uni.NewAddress Addr.NewAddress
      rw [Decode_ascii T raw h]; rfl
    rw [this]; exact ⟨fun _ => Iff.rfl, Iff.rfl⟩
  · unfold Uni.NewAddress Addr.NewAddress
    split
    · rename_i hp
      obtain ⟨c, s, rfl, hc, hu⟩ := prefix_head raw hp
      obtain ⟨m1, e1⟩ := decode_uni_err T c s hc hu h
      obtain ⟨m2, e2⟩ := decode_err_of_not_ascii _ h
      rw [e1, e2]
      refine ⟨fun a => ⟨fun h => (by cases h), fun h => (by cases h)⟩, ⟨fun h => (by cases h), fun h => (by cases h)⟩⟩
    · exact ⟨fun _ => Iff.rfl, Iff.rfl⟩

/-- **C72.** A string that starts with `addr` or `stake` and contains a byte above 127 (a character that looks like a letter, a zero-width character, an
invalid encoding) is rejected with an error. -/
theorem C72_non_ascii_rejected (T : Tables) (strict : Bool) (raw rest spare : Bytes)
    (hp : raw = asc ['a','d','d','r'] ++ rest ∨ raw = asc ['s','t','a','k','e'] ++ rest) (b : UInt8) (hb : b ∈ raw) (h : 128 ≤ b.toNat) :
    ∃ m, Uni.NewAddress T strict raw spare = .err m := by
  have hna : ¬ Ascii raw := fun ha => by
    have : b.toNat < 128 := ha b hb
    omega
  have hp' : (Addr.hasPrefix raw (asc ['a','d','d','r']) || Addr.hasPrefix raw (asc ['s','t','a','k','e'])) = true := by
    rcases hp with rfl | rfl
    · simp [Addr.hasPrefix]
    · simp [Addr.hasPrefix]
  obtain ⟨c, s, rfl, hc, hu⟩ := prefix_head raw hp'
  obtain ⟨m1, e1⟩ := decode_uni_err T c s hc hu hna
  exact ⟨m1, by unfold Uni.NewAddress; rw [if_pos hp', e1]⟩

/-- Case tables with these entries exist. -/
def sampleTables : Tables where
  lower r := if r = 0x212a then 107 else if r = 0x130 then 105 else if 65 ≤ r ∧ r ≤ 90 then r + 32 else r
  upper r := if 97 ≤ r ∧ r ≤ 122 then r - 32 else r
  lower_ascii r h := by rw [if_neg (by omega), if_neg (by omega)]
  upper_ascii r _ := rfl
  lower_high r h1 h2 := by
    by_cases e : r = 0x212a
    · exact .inl e
    · by_cases e2 : r = 0x130
      · exact .inr e2
      · rw [if_neg e, if_neg e2, if_neg (by omega)] at h2; omega
  lower_kelvin := rfl
  lower_dotted := rfl
  upper_kelvin := rfl

-- Non-vacuity of C72: `addr1` with a zero-width space in it.
example : asc ['a','d','d','r'] ++ [0xe2, 0x80, 0x8b, 49, 113, 113] = asc ['a','d','d','r'] ++ [0xe2, 0x80, 0x8b, 49, 113, 113] ∧
    (0xe2 : UInt8) ∈ asc ['a','d','d','r'] ++ [0xe2, 0x80, 0x8b, 49, 113, 113] := ⟨rfl, by decide⟩

/-! ### C73: the decoder itself -/

theorem toUpper_append (a b : Bytes) : toUpper (a ++ b) = toUpper a ++ toUpper b := by simp [toUpper]

theorem kelvin_decode (T : Tables) (h e d : Bytes) (ha : Ascii h) (hd : (49 : UInt8) ∉ d) (k : Kelvin e d) (hu : toUpper h = h) (hv : toUpper d = d)
    (hl : 6 ≤ d.length) : Uni.Decode T (h ++ 49 :: e) = Uni.Decode T (h ++ 49 :: d) := by
  have he : (49 : UInt8) ∉ e := fun hm => hd ((k.mem 49 (by decide) (by decide)).1 hm)
  have hda := mapRunes_ascii T d k.ascii
  have hle := k.length
  rw [decode_join T h e ha he, decode_join T h d ha hd, k.lower T, hda.1, hda.2]
  have h1 : mapRunes T.upper e = e := (k.upper T).2 hv
  rw [h1, hv, hu]
  have n1 : ¬ ((toLower h ++ 49 :: toLower d ≠ h ++ 49 :: e) ∧ (h ++ 49 :: e ≠ h ++ 49 :: e)) := fun h => h.2 rfl
  have n2 : ¬ ((toLower h ++ 49 :: toLower d ≠ h ++ 49 :: d) ∧ (h ++ 49 :: d ≠ h ++ 49 :: d)) := fun h => h.2 rfl
  rw [if_neg n1, if_neg n2]
  have l1 : (h.length < 1 ∨ h.length + 7 > (h ++ 49 :: e).length) ↔ h.length < 1 := by
    simp only [List.length_append, List.length_cons]; omega
  have l2 : (h.length < 1 ∨ h.length + 7 > (h ++ 49 :: d).length) ↔ h.length < 1 := by
    simp only [List.length_append, List.length_cons]; omega
  simp only [l1, l2]

/-- **C73 (partial).** What the decoder accepts, exactly, on all strings: the strings that BIP-173 decoding of bytes accepts (C67), and those that arise from
an accepted string in upper case by writing letters `K` of its data part as U+212A, KELVIN SIGN; the result is then that of the original. -/
theorem C73_decode_exact_partial (T : Tables) (s : Bytes) (x : Bytes × Bytes) :
    Uni.Decode T s = .ok x ↔ Bech32.Decode s = .ok x ∨
      ∃ h d e, s = h ++ 49 :: e ∧ Kelvin e d ∧ (49 : UInt8) ∉ d ∧ toUpper (h ++ 49 :: d) = h ++ 49 :: d ∧ Bech32.Decode (h ++ 49 :: d) = .ok x := by
  constructor
  · intro hs
    by_cases hna : Ascii s
    · exact .inl (by rw [← Decode_ascii T s hna]; exact hs)
    · refine .inr ?_
      cases el : lastIndex1 s with
      | none =>
        unfold Uni.Decode at hs
        rw [el] at hs
        split at hs <;> cases hs
      | some pos =>
        obtain ⟨e1, e2⟩ := lastIndex1_split _ _ el
        have ha : Ascii (s.take pos) := by
          unfold Uni.Decode at hs
          rw [el] at hs
          dsimp only at hs
          split at hs
          · cases hs
          · split at hs
            · cases hs
            · rw [hrpRunesOk_eq] at hs
              cases e : hrpCharsOk (s.take pos) with
              | true => exact ascii_of_hrpCharsOk _ e
              | false => rw [e] at hs; cases hs
        generalize s.take pos = h0 at *
        generalize s.drop (pos + 1) = d0 at *
        subst e1
        have hs0 := hs
        rw [decode_join T h0 d0 ha e2] at hs
        split at hs
        · cases hs
        · rename_i hm
          split at hs
          · cases hs
          · split at hs
            · cases hs
            · obtain ⟨ds, hr, hl⟩ := body_ok T _ _ _ hs
              obtain ⟨d, k⟩ := kelvin_of_runes d0 (data_runes T d0 ds hr)
              have hd : (49 : UInt8) ∉ d := fun hm => e2 ((k.mem 49 (by decide) (by decide)).2 hm)
              have hne : toLower h0 ++ 49 :: mapRunes T.lower d0 ≠ h0 ++ 49 :: d0 := by
                intro e
                have hlen : (toLower h0).length = h0.length := by simp [toLower]
                have e3 : mapRunes T.lower d0 = d0 := (List.cons.inj (List.append_inj e hlen).2).2
                rw [k.lower T] at e3
                apply hna
                intro b hb
                rcases List.mem_append.1 hb with hb | hb
                · exact ha b hb
                · rcases List.mem_cons.1 hb with rfl | hb
                  · decide
                  · rw [← e3] at hb; exact toLower_ascii d k.ascii b hb
              have hup : toUpper h0 ++ 49 :: mapRunes T.upper d0 = h0 ++ 49 :: d0 := Classical.byContradiction fun h' => hm ⟨hne, h'⟩
              have hlen : (toUpper h0).length = h0.length := by simp [toUpper]
              have hi := List.append_inj hup hlen
              have hv : toUpper d = d := (k.upper T).1 (List.cons.inj hi.2).2
              rw [k.lower T, runes_ascii _ (toLower_ascii d k.ascii), readRunes_ascii _ (toLower_ascii d k.ascii)] at hr
              have hl2 : 6 ≤ d.length := by
                have := readSyms_length _ _ hr
                simp only [toLower, List.length_map] at this
                omega
              refine ⟨h0, d, d0, rfl, k, hd, ?_, ?_⟩
              · rw [toUpper_append, hi.1]
                show h0 ++ upper8 49 :: toUpper d = _
                rw [hv]; rfl
              · rw [← hs0, kelvin_decode T h0 d0 d ha hd k hi.1 hv hl2, Decode_ascii T]
                intro b hb
                rcases List.mem_append.1 hb with hb | hb
                · exact ha b hb
                · rcases List.mem_cons.1 hb with rfl | hb
                  · decide
                  · exact k.ascii b hb
  · rintro (hs | ⟨h, d, e, rfl, k, hd, hu, hs⟩)
    · rw [Decode_ascii T s (ascii_of_decode s x hs)]; exact hs
    · have ha := ascii_of_decode _ _ hs
      have hlen : (toUpper h).length = h.length := by simp [toUpper]
      rw [toUpper_append] at hu
      have hi := List.append_inj hu hlen
      have hv : toUpper d = d := (List.cons.inj hi.2).2
      obtain ⟨cs, vs, e1, hn, -, hl, -, -, hcs, -⟩ := decode_ok _ x.1 x.2 hs
      have hcl := congrArg List.length hcs
      simp only [toLower, List.length_map] at hcl
      have hl2 : 6 ≤ d.length := by
        have h1 := lastIndex1_join h d hd
        rw [e1, lastIndex1_join x.1 cs hn] at h1
        have h2 := congrArg List.length e1
        simp only [Option.some.injEq] at h1
        simp only [List.length_append, List.length_cons] at h2
        omega
      rw [kelvin_decode T h e d (fun b hb => ha b (List.mem_append_left _ hb)) hd k hi.1 hv hl2, Decode_ascii T _ ha]
      exact hs

/-- **C73 is false**: the decoder accepts strings that are not ASCII, whatever the remaining case tables are. `A1KCX3X65P` is the Bech32 string for the byte
182; with its `K` written as the Kelvin sign it is accepted as well. -/
theorem C73_non_ascii_accepted (T : Tables) :
    Uni.Decode T (asc ['A','1'] ++ [0xe2, 0x84, 0xaa] ++ asc ['C','X','3','X','6','5','P']) = .ok (asc ['A'], [182]) ∧
    Uni.Decode T (asc ['A','1','K','C','X','3','X','6','5','P']) = .ok (asc ['A'], [182]) := by
  have h0 : Bech32.Decode (asc ['A'] ++ 49 :: 75 :: asc ['C','X','3','X','6','5','P']) = .ok (asc ['A'], [182]) := by decide +kernel
  have k0 : ∀ l : Bytes, Ascii l → Kelvin l l := by
    intro l
    induction l with
    | nil => intro _; exact .nil
    | cons b l ih => intro h; exact .same b l l (h b (by simp)) (ih fun x hx => h x (by simp [hx]))
  refine ⟨(C73_decode_exact_partial T _ _).2 (.inr ⟨asc ['A'], 75 :: asc ['C','X','3','X','6','5','P'],
    0xe2 :: 0x84 :: 0xaa :: asc ['C','X','3','X','6','5','P'], rfl, .sign _ _ (k0 _ ?_), ?_, ?_, h0⟩),
    (C73_decode_exact_partial T _ _).2 (.inl h0)⟩
  · unfold Ascii; decide
  · decide
  · decide

/-- **C73 is false**: the decoder panics on `CAMARYW1` followed by two Kelvin signs. These are six bytes, enough for the check of the length, but two symbols,
and the checksum is right. -/
theorem C73_decode_panics (T : Tables) : Uni.Decode T (asc ['C','A','M','A','R','Y','W','1'] ++ [0xe2, 0x84, 0xaa, 0xe2, 0x84, 0xaa]) = .panic := by
  have k : Kelvin [0xe2, 0x84, 0xaa, 0xe2, 0x84, 0xaa] [75, 75] := .sign _ _ (.sign _ _ .nil)
  have ha : Ascii (asc ['C','A','M','A','R','Y','W']) := by unfold Ascii; decide
  have hd := decode_join T (asc ['C','A','M','A','R','Y','W']) [0xe2, 0x84, 0xaa, 0xe2, 0x84, 0xaa] ha (by decide)
  rw [k.lower T, (k.upper T).2 (by decide)] at hd
  show Uni.Decode T (asc ['C','A','M','A','R','Y','W'] ++ 49 :: [0xe2, 0x84, 0xaa, 0xe2, 0x84, 0xaa]) = _
  rw [hd, if_neg (by decide), if_neg (by decide), if_neg (by decide)]
  have hr : runes (toLower [75, 75]) = [107, 107] := by
    rw [runes_ascii _ (by unfold Ascii; decide)]; rfl
  rw [hr, body]
  show (if (!Uni.verifyChecksum T _ [22, 22]) = true then _ else _) = _
  rw [Uni.verifyChecksum, hrpExpand_ascii T _ ha, if_neg (by decide +kernel)]
  rfl

/-- **C73 (partial).** On ASCII strings the decoder does not panic. -/
theorem C73_ascii_no_panic_partial (T : Tables) (s : Bytes) (h : ∀ b ∈ s, b.toNat < 128) : Uni.Decode T s ≠ .panic := by
  rw [Decode_ascii T s h]; exact decode_not_panic s

-- Non-vacuity: the hypothesis holds of an ordinary address.
example : ∀ b ∈ asc ['a','d','d','r','1','v','y'], b.toNat < 128 := by decide

/-- **C72.** Encoding with an arbitrary string as human-readable part is the byte-wise one; a prefix that is not ASCII is refused. -/
theorem C72_encode_any_prefix (T : Tables) (hrp data : Bytes) :
    Uni.Encode T hrp data = Bech32.Encode hrp data ∧ ((∃ b ∈ hrp, 128 ≤ b.toNat) → ∀ s, Uni.Encode T hrp data ≠ .ok s) := by
  refine ⟨Encode_eq T hrp data, ?_⟩
  rintro ⟨b, hb, h⟩ s hs
  have hna : hrpCharsOk hrp = false := by
    cases e : hrpCharsOk hrp with
    | false => rfl
    | true =>
      have : b.toNat < 128 := ascii_of_hrpCharsOk hrp e b hb
      omega
  unfold Uni.Encode at hs
  rw [hrpRunesOk_eq, hna] at hs
  cases e : convertBits data 8 5 true with
  | err m => rw [e] at hs; cases hs
  | panic => rw [e] at hs; cases hs
  | ok v =>
    rw [e] at hs
    change (if hrp.length < 1 then _ else if (!false) = true then _ else _) = _ at hs
    split at hs <;> cases hs

end Cardano.Props
