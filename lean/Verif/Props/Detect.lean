import Verif.Props.AddressString
import Verif.Bech32.Four
/-!
# Properties C09, C56: three and four substituted characters

`Props/Bech32.lean` treats bursts and two characters.  Here: any three characters of a data part of at most 1023 characters, any four of a data part of
at most 89 characters (BIP-173's guarantee; enterprise and stake addresses have 53), any four of a data part of at most 99 characters (base addresses
have 98) except in two arrangements, and a pair of base addresses in one of these arrangements, which shows that the exception is necessary.
-/
set_option autoImplicit false

namespace Cardano.Props
open Cardano.Spec Cardano.Addr Cardano.Bech32

namespace Detect

theorem three_all (e : Bytes) (he : ∀ x ∈ e, x.toNat < 32) (hn : e.length ≤ 1023) (i k l : Nat)
    (hout : ∀ p, p < e.length → p ≠ i → p ≠ k → p ≠ l → e.getD p 0 = 0) (h : e.foldl polymodStep 0 = 0) :
    ∀ p, p < e.length → e.getD p 0 = 0 := by
  intro p hp
  by_cases h1 : p = i
  · exact BCH.three_pos e he hn p k l hp (fun q a b c d => hout q a (h1 ▸ b) c d) h
  · by_cases h2 : p = k
    · exact BCH.three_pos e he hn p i l hp (fun q a b c d => hout q a c (h2 ▸ b) d) h
    · by_cases h3 : p = l
      · exact BCH.three_pos e he hn p i k hp (fun q a b c d => hout q a c d (h3 ▸ b)) h
      · exact hout p hp h1 h2 h3

theorem getD_big (e : Bytes) (p : Nat) (h : ¬ p < e.length) : e.getD p 0 = 0 := by
  rw [List.getD_eq_getElem?_getD, List.getElem?_eq_none (by omega)]; rfl

theorem four_sorted (e : Bytes) (he : ∀ x ∈ e, x.toNat < 32) (hn : e.length ≤ 99) (i k l m : Nat) (hik : i < k) (hkl : k < l) (hlm : l < m)
    (hsp : ¬ BCH.Special (m - l) (m - k) (m - i))
    (hout : ∀ p, p < e.length → p ≠ i → p ≠ k → p ≠ l → p ≠ m → e.getD p 0 = 0) (h : e.foldl polymodStep 0 = 0) :
    ∀ p, p < e.length → e.getD p 0 = 0 := by
  by_cases z1 : e.getD i 0 = 0
  · exact three_all e he (by omega) k l m (fun p hp a b c => if hi : p = i then hi ▸ z1 else hout p hp hi a b c) h
  by_cases z2 : e.getD k 0 = 0
  · exact three_all e he (by omega) i l m (fun p hp a b c => if hi : p = k then hi ▸ z2 else hout p hp a hi b c) h
  by_cases z3 : e.getD l 0 = 0
  · exact three_all e he (by omega) i k m (fun p hp a b c => if hi : p = l then hi ▸ z3 else hout p hp a b hi c) h
  by_cases z4 : e.getD m 0 = 0
  · exact three_all e he (by omega) i k l (fun p hp a b c => if hi : p = m then hi ▸ z4 else hout p hp a b c hi) h
  have hm : m < e.length := Classical.byContradiction fun hc => z4 (getD_big e m hc)
  exact absurd (BCH.four_pos e he hn i k l m hik hkl hlm hm hout z1 z2 z3 z4 h) hsp

/-- Four different positions in increasing order. -/
theorem sort4 (i k l m : Nat) (h : ({i, k, l, m} : Finset Nat).card = 4) :
    ∃ a b c d, a < b ∧ b < c ∧ c < d ∧ ∀ p, (p ≠ a → p ≠ b → p ≠ c → p ≠ d → p ≠ i ∧ p ≠ k ∧ p ≠ l ∧ p ≠ m) := by
  let f := ({i, k, l, m} : Finset Nat).orderEmbOfFin h
  refine ⟨f 0, f 1, f 2, f 3, f.strictMono (by decide), f.strictMono (by decide), f.strictMono (by decide), ?_⟩
  intro p h0 h1 h2 h3
  have hr : p ∉ ({i, k, l, m} : Finset Nat) := by
    intro hp
    have : p ∈ Set.range f := by
      have := Finset.range_orderEmbOfFin ({i, k, l, m} : Finset Nat) h
      rw [this]; exact hp
    obtain ⟨x, hx⟩ := this
    match x, hx with
    | 0, hx => exact h0 hx.symm
    | 1, hx => exact h1 hx.symm
    | 2, hx => exact h2 hx.symm
    | 3, hx => exact h3 hx.symm
  simpa only [Finset.mem_insert, Finset.mem_singleton, not_or] using hr

theorem four_all (e : Bytes) (he : ∀ x ∈ e, x.toNat < 32) (hn : e.length ≤ 89) (i k l m : Nat)
    (hout : ∀ p, p < e.length → p ≠ i → p ≠ k → p ≠ l → p ≠ m → e.getD p 0 = 0) (h : e.foldl polymodStep 0 = 0) :
    ∀ p, p < e.length → e.getD p 0 = 0 := by
  by_cases hc : ({i, k, l, m} : Finset Nat).card = 4
  · obtain ⟨a, b, c, d, hab, hbc, hcd, hmem⟩ := sort4 i k l m hc
    by_cases hd : d < e.length
    · refine four_sorted e he (by omega) a b c d hab hbc hcd ?_ (fun p hp w x y z => ?_) h
      · unfold BCH.Special; omega
      · obtain ⟨h1, h2, h3, h4⟩ := hmem p w x y z
        exact hout p hp h1 h2 h3 h4
    · refine three_all e he (by omega) a b c (fun p hp w x y => ?_) h
      obtain ⟨h1, h2, h3, h4⟩ := hmem p w x y (by omega)
      exact hout p hp h1 h2 h3 h4
  · by_cases c1 : i = k ∨ i = l ∨ i = m
    · exact three_all e he (by omega) k l m (fun p hp a b c => hout p hp (by omega) a b c) h
    by_cases c2 : k = l ∨ k = m
    · exact three_all e he (by omega) i l m (fun p hp a b c => hout p hp a (by omega) b c) h
    by_cases c3 : l = m
    · exact three_all e he (by omega) i k m (fun p hp a b c => hout p hp a b (by omega) c) h
    exfalso
    apply hc
    simp only [not_or] at c1 c2
    rw [Finset.card_insert_of_notMem, Finset.card_insert_of_notMem, Finset.card_insert_of_notMem, Finset.card_singleton]
    · simpa using c3
    · simpa using c2
    · simpa using c1

/-- From the difference of the symbols to the decoder. -/
theorem rejected (h cs cs' : Bytes) (r : Bytes × Bytes)
    (hacc : Decode (h ++ 49 :: cs) = .ok r) (hn : (49 : UInt8) ∉ cs) (hn' : (49 : UInt8) ∉ cs')
    (hlen : cs'.length = cs.length) (hne : toLower cs' ≠ toLower cs)
    (K : ∀ e : Bytes, (∀ x ∈ e, x.toNat < 32) → e.length = cs.length → e.foldl polymodStep 0 = 0 →
      (∀ p, p < e.length → cs'[p]? = cs[p]? → e.getD p 0 = 0) → ∀ p, p < e.length → e.getD p 0 = 0) :
    ∃ m, Decode (h ++ 49 :: cs') = .err m := by
  cases hd' : Decode (h ++ 49 :: cs') with
  | err m => exact ⟨m, rfl⟩
  | panic => exact absurd hd' (decode_not_panic _)
  | ok r' =>
    exfalso
    obtain ⟨vs, vs', a1, a2, b1, b2, l1, l2, hs⟩ := same_hrp h cs cs' r r' hn hn' hlen hacc hd'
    have hxl : (xorList vs vs').length = vs.length := by simp [xorList, l1]
    have gd : ∀ p (hp : p < (xorList vs vs').length), (xorList vs vs').getD p 0 = (xorList vs vs')[p] := by
      intro p hp; simp [List.getD, hp]
    have hz := K (xorList vs vs') (xorList_lt vs vs' b1 b2) (by omega) hs (fun p hp hc => by
      rw [gd p hp]
      exact diff_zero cs cs' vs vs' a1 a2 b1 b2 l1 p hp (by rw [hc]))
    apply hne
    rw [a1, a2, all_zero_eq vs vs' l1 ?_]
    intro x hx
    obtain ⟨p, hp, rfl⟩ := List.getElem_of_mem hx
    rw [← gd p hp]; exact hz p hp

end Detect

/-- **C09 (three characters).** Take an accepted string `h ++ "1" ++ cs` with at most 1023 data characters. Change at most three characters of the
data part, anywhere (more than letter case): the result is rejected. -/
theorem C09_bech32_detects_three (h cs cs' : Bytes) (r : Bytes × Bytes)
    (hacc : Decode (h ++ 49 :: cs) = .ok r) (hn : (49 : UInt8) ∉ cs) (hn' : (49 : UInt8) ∉ cs')
    (hlen : cs'.length = cs.length) (hne : toLower cs' ≠ toLower cs) (hmax : cs.length ≤ 1023)
    (i k l : Nat) (hwin : ∀ j, j ≠ i → j ≠ k → j ≠ l → cs'[j]? = cs[j]?) :
    ∃ m, Decode (h ++ 49 :: cs') = .err m :=
  Detect.rejected h cs cs' r hacc hn hn' hlen hne fun e he hl hs hz =>
    Detect.three_all e he (by omega) i k l (fun p hp a b c => hz p hp (hwin p a b c)) hs

/-- **C09 (four characters).** The guarantee of BIP-173: with at most 89 data characters, any change of at most four of them is rejected. -/
theorem C09_bech32_detects_four (h cs cs' : Bytes) (r : Bytes × Bytes)
    (hacc : Decode (h ++ 49 :: cs) = .ok r) (hn : (49 : UInt8) ∉ cs) (hn' : (49 : UInt8) ∉ cs')
    (hlen : cs'.length = cs.length) (hne : toLower cs' ≠ toLower cs) (hmax : cs.length ≤ 89)
    (i k l m : Nat) (hwin : ∀ j, j ≠ i → j ≠ k → j ≠ l → j ≠ m → cs'[j]? = cs[j]?) :
    ∃ m, Decode (h ++ 49 :: cs') = .err m :=
  Detect.rejected h cs cs' r hacc hn hn' hlen hne fun e he hl hs hz =>
    Detect.four_all e he (by omega) i k l m (fun p hp a b c d => hz p hp (hwin p a b c d)) hs

/-- **C09 (four characters, base addresses).** With at most 99 data characters (a base address has 98), any change of four of them at positions
`i < k < l < m` is rejected, unless the positions are 0, 10, 75, 89 or 0, 3, 66, 96 places after the first of them. -/
theorem C09_bech32_detects_four_long (h cs cs' : Bytes) (r : Bytes × Bytes)
    (hacc : Decode (h ++ 49 :: cs) = .ok r) (hn : (49 : UInt8) ∉ cs) (hn' : (49 : UInt8) ∉ cs')
    (hlen : cs'.length = cs.length) (hne : toLower cs' ≠ toLower cs) (hmax : cs.length ≤ 99)
    (i k l m : Nat) (hik : i < k) (hkl : k < l) (hlm : l < m)
    (hsp : ¬ (k = i + 10 ∧ l = i + 75 ∧ m = i + 89)) (hsp' : ¬ (k = i + 3 ∧ l = i + 66 ∧ m = i + 96))
    (hwin : ∀ j, j ≠ i → j ≠ k → j ≠ l → j ≠ m → cs'[j]? = cs[j]?) :
    ∃ m, Decode (h ++ 49 :: cs') = .err m :=
  Detect.rejected h cs cs' r hacc hn hn' hlen hne fun e he hl hs hz =>
    Detect.four_sorted e he (by omega) i k l m hik hkl hlm (by unfold BCH.Special; omega)
      (fun p hp a b c d => hz p hp (hwin p a b c d)) hs

/-- The data parts of two test net base addresses; the first is the one of examples/node/main.go:51. -/
def fourApart : Bytes × Bytes :=
  (asc "qqe6zztejhz5hq0xghlf72resflc4t2gmu9xjlf73x8dpf88d78zlt4rng3ccw8g5vvnkyrvt96mug06l5eskxh8rcjq2wyd63".toList,
   asc "qqe6zztedhz5hq0xghtf72resflc4t2gmu9xjlf73x8dpf88d78zlt4rng3ccw8g5vvnkyrvt96mug06l5e3kxh8rcjq2wyd6m".toList)

/-- **C09 (four characters, counterexample).** The exception of `C09_bech32_detects_four_long` is necessary: two base addresses that the decoder and
`NewAddress` both accept, with different contents, whose texts differ in four characters only (positions 8, 18, 83, 97 of the data part). -/
theorem C09_four_not_always_detected :
    (NewAddress true (asc "addr_test".toList ++ 49 :: fourApart.1) []).isOk = true ∧
    (NewAddress true (asc "addr_test".toList ++ 49 :: fourApart.2) []).isOk = true ∧
    NewAddress true (asc "addr_test".toList ++ 49 :: fourApart.1) [] ≠ NewAddress true (asc "addr_test".toList ++ 49 :: fourApart.2) [] ∧
    fourApart.1.length = 98 ∧ fourApart.2.length = 98 ∧
    (∀ j, j ≠ 8 → j ≠ 18 → j ≠ 83 → j ≠ 97 → fourApart.2[j]? = fourApart.1[j]?) := by
  refine ⟨by decide +kernel, by decide +kernel, by decide +kernel, by decide +kernel, by decide +kernel, ?_⟩
  · have hall : ∀ j : Fin 98, j.val ≠ 8 → j.val ≠ 18 → j.val ≠ 83 → j.val ≠ 97 → fourApart.2[j.val]? = fourApart.1[j.val]? := by decide +kernel
    intro j h1 h2 h3 h4
    by_cases hj : j < 98
    · exact hall ⟨j, hj⟩ h1 h2 h3 h4
    · have l1 : fourApart.1.length = 98 := by decide +kernel
      have l2 : fourApart.2.length = 98 := by decide +kernel
      rw [List.getElem?_eq_none (by omega), List.getElem?_eq_none (by omega)]

/-- The data parts of two test net base addresses that differ in four characters, at distances 3, 66 and 96 from the first. -/
def fourApart2 : Bytes × Bytes :=
  (fourApart.1, asc "qpe6eztejhz5hq0xghlf72resflc4t2gmu9xjlf73x8dpf88d78zlt4rng3ccw8g5vvskyrvt96mug06l5eskxh8rcjq2wyd62".toList)

/-- **C09 (four characters, the other arrangement).** Undetected changes exist for the second exception of `C09_bech32_detects_four_long` as well (positions 1, 4, 67, 97). -/
theorem C09_four_other_arrangement :
    (NewAddress true (asc "addr_test".toList ++ 49 :: fourApart2.1) []).isOk = true ∧
    (NewAddress true (asc "addr_test".toList ++ 49 :: fourApart2.2) []).isOk = true ∧
    NewAddress true (asc "addr_test".toList ++ 49 :: fourApart2.1) [] ≠ NewAddress true (asc "addr_test".toList ++ 49 :: fourApart2.2) [] ∧
    fourApart2.1.length = 98 ∧ fourApart2.2.length = 98 ∧
    (∀ j, j ≠ 1 → j ≠ 4 → j ≠ 67 → j ≠ 97 → fourApart2.2[j]? = fourApart2.1[j]?) := by
  refine ⟨by decide +kernel, by decide +kernel, by decide +kernel, by decide +kernel, by decide +kernel, ?_⟩
  have hall : ∀ j : Fin 98, j.val ≠ 1 → j.val ≠ 4 → j.val ≠ 67 → j.val ≠ 97 → fourApart2.2[j.val]? = fourApart2.1[j.val]? := by decide +kernel
  intro j h1 h2 h3 h4
  by_cases hj : j < 98
  · exact hall ⟨j, hj⟩ h1 h2 h3 h4
  · have l1 : fourApart2.1.length = 98 := by decide +kernel
    have l2 : fourApart2.2.length = 98 := by decide +kernel
    rw [List.getElem?_eq_none (by omega), List.getElem?_eq_none (by omega)]

/-- **C56 (three characters).** An address text with up to three wrong characters in the data part is refused. -/
theorem C56_mistyped_three_rejected (strict : Bool) (h cs cs' spare spare' : Bytes) (a : Address) (hl : LooksBech32 h)
    (hacc : NewAddress strict (h ++ 49 :: cs) spare = .ok a) (hn : (49 : UInt8) ∉ cs) (hn' : (49 : UInt8) ∉ cs')
    (hlen : cs'.length = cs.length) (hne : toLower cs' ≠ toLower cs) (hmax : cs.length ≤ 1023)
    (i k l : Nat) (hwin : ∀ j, j ≠ i → j ≠ k → j ≠ l → cs'[j]? = cs[j]?) :
    ∃ m, NewAddress strict (h ++ 49 :: cs') spare' = .err m := by
  obtain ⟨hrp, d, hd, _⟩ := accepted_decodes _ _ _ _ (looks_append _ _ hl) hacc
  exact err_of_decode _ _ _ (looks_append _ _ hl) (C09_bech32_detects_three h cs cs' _ hd hn hn' hlen hne hmax i k l hwin)

/-- **C56 (four characters).** An address text with at most 89 data characters (enterprise, stake) and up to four wrong ones is refused. -/
theorem C56_mistyped_four_rejected (strict : Bool) (h cs cs' spare spare' : Bytes) (a : Address) (hl : LooksBech32 h)
    (hacc : NewAddress strict (h ++ 49 :: cs) spare = .ok a) (hn : (49 : UInt8) ∉ cs) (hn' : (49 : UInt8) ∉ cs')
    (hlen : cs'.length = cs.length) (hne : toLower cs' ≠ toLower cs) (hmax : cs.length ≤ 89)
    (i k l m : Nat) (hwin : ∀ j, j ≠ i → j ≠ k → j ≠ l → j ≠ m → cs'[j]? = cs[j]?) :
    ∃ m, NewAddress strict (h ++ 49 :: cs') spare' = .err m := by
  obtain ⟨hrp, d, hd, _⟩ := accepted_decodes _ _ _ _ (looks_append _ _ hl) hacc
  exact err_of_decode _ _ _ (looks_append _ _ hl) (C09_bech32_detects_four h cs cs' _ hd hn hn' hlen hne hmax i k l m hwin)

/-- The text of a base, enterprise or reward address. -/
theorem Detect.text_shape (a : Address) (ha : ShelleyOk a) (hp : ∀ n p s, a ≠ .pointer n p s) :
    ∃ cs, string a = .ok (pfx a ++ 49 :: cs) ∧ LooksBech32 (pfx a) ∧ (49 : UInt8) ∉ cs ∧ 5 * (cs.length - 6) < 8 * (bytes a).length + 5 ∧
      Decode (pfx a ++ 49 :: cs) = .ok (pfx a, bytes a) := by
  have key : LowerHrp (pfx a) → LooksBech32 (pfx a) → string a = orEmpty (Bech32.Encode (pfx a) (bytes a)) →
      ∃ cs, string a = .ok (pfx a ++ 49 :: cs) ∧ LooksBech32 (pfx a) ∧ (49 : UInt8) ∉ cs ∧ 5 * (cs.length - 6) < 8 * (bytes a).length + 5 ∧
        Decode (pfx a ++ 49 :: cs) = .ok (pfx a, bytes a) := by
    intro hh hl hs
    obtain ⟨s, h1, h2⟩ := C08_bech32_roundtrip (pfx a) (bytes a) hh
    obtain ⟨cs, vs, e, hn, _, h6, _, _, hcs, _, _, hcv⟩ := Bech32.decode_ok _ _ _ h2
    have hlen : cs.length = vs.length := by simpa [toLower] using congrArg List.length hcs
    obtain ⟨_, _, p, _, hp5, hl5, _⟩ := convert_nopad 5 8 (by omega) (by omega) (by omega) _ _ hcv
    rw [List.length_take] at hl5
    rw [e] at h1 h2
    exact ⟨cs, by rw [hs, h1]; rfl, hl, hn, by omega, h2⟩
  have p1 : LowerHrp (asc ['a','d','d','r']) ∧ LooksBech32 (asc ['a','d','d','r']) := ⟨by unfold LowerHrp; decide, Or.inl ⟨[], rfl⟩⟩
  have p2 : LowerHrp (asc ['a','d','d','r','_','t','e','s','t']) ∧ LooksBech32 (asc ['a','d','d','r','_','t','e','s','t']) :=
    ⟨by unfold LowerHrp; decide, Or.inl ⟨asc ['_','t','e','s','t'], rfl⟩⟩
  have p3 : LowerHrp (asc ['s','t','a','k','e']) ∧ LooksBech32 (asc ['s','t','a','k','e']) := ⟨by unfold LowerHrp; decide, Or.inr ⟨[], rfl⟩⟩
  have p4 : LowerHrp (asc ['s','t','a','k','e','_','t','e','s','t']) ∧ LooksBech32 (asc ['s','t','a','k','e','_','t','e','s','t']) :=
    ⟨by unfold LowerHrp; decide, Or.inr ⟨asc ['_','t','e','s','t'], rfl⟩⟩
  cases a with
  | byron b => exact absurd ha id
  | pointer n p s => exact absurd rfl (hp n p s)
  | base n p s =>
    have : LowerHrp (pfx (.base n p s)) ∧ LooksBech32 (pfx (.base n p s)) := by simp only [pfx]; split <;> assumption
    exact key this.1 this.2 rfl
  | enterprise n p =>
    have : LowerHrp (pfx (.enterprise n p)) ∧ LooksBech32 (pfx (.enterprise n p)) := by simp only [pfx]; split <;> assumption
    exact key this.1 this.2 rfl
  | reward n p =>
    have : LowerHrp (pfx (.reward n p)) ∧ LooksBech32 (pfx (.reward n p)) := by simp only [pfx]; split <;> assumption
    exact key this.1 this.2 rfl

/-- **C56 (by address type).** The text `String()` of every well-formed enterprise or reward address: replacing any up to four characters of its data
part (by characters other than `1`, in more than letter case) gives a text that `NewAddress` refuses. -/
theorem C56_four_wrong_characters (a : Address) (ha : ShelleyOk a) (ht : (∃ n p, a = .enterprise n p) ∨ (∃ n s, a = .reward n s)) :
    ∃ cs, string a = .ok (pfx a ++ 49 :: cs) ∧ ∀ (cs' : Bytes) (i k l m : Nat), (49 : UInt8) ∉ cs' → cs'.length = cs.length →
      toLower cs' ≠ toLower cs → (∀ j, j ≠ i → j ≠ k → j ≠ l → j ≠ m → cs'[j]? = cs[j]?) →
      ∀ (strict : Bool) (spare : Bytes), ∃ msg, NewAddress strict (pfx a ++ 49 :: cs') spare = .err msg := by
  obtain ⟨cs, h1, hl, hn, hlen, hd⟩ := Detect.text_shape a ha (by rcases ht with ⟨n, p, rfl⟩ | ⟨n, p, rfl⟩ <;> intros <;> simp)
  have hb : (bytes a).length = 29 := by
    rcases ht with ⟨n, p, rfl⟩ | ⟨n, p, rfl⟩ <;> simp [bytes, copyZ]
  refine ⟨cs, h1, fun cs' i k l m hn' hl' hne hw strict spare => ?_⟩
  exact err_of_decode _ _ _ (looks_append _ _ hl) (C09_bech32_detects_four _ cs cs' _ hd hn hn' hl' hne (by omega) i k l m hw)

/-- **C56 (by address type).** The same for every well-formed base address and up to three characters; four are refused too unless their
positions follow one of the two arrangements of `C09_bech32_detects_four_long`. -/
theorem C56_three_wrong_characters (n : NetworkInfo) (p s : Cred) (ha : ShelleyOk (.base n p s)) :
    ∃ cs, string (.base n p s) = .ok (pfx (.base n p s) ++ 49 :: cs) ∧ ∀ cs' : Bytes, (49 : UInt8) ∉ cs' → cs'.length = cs.length →
      toLower cs' ≠ toLower cs →
      ((∃ i k l : Nat, ∀ j, j ≠ i → j ≠ k → j ≠ l → cs'[j]? = cs[j]?) ∨
       (∃ i k l m : Nat, i < k ∧ k < l ∧ l < m ∧ ¬ (k = i + 10 ∧ l = i + 75 ∧ m = i + 89) ∧ ¬ (k = i + 3 ∧ l = i + 66 ∧ m = i + 96) ∧
          ∀ j, j ≠ i → j ≠ k → j ≠ l → j ≠ m → cs'[j]? = cs[j]?)) →
      ∀ (strict : Bool) (spare : Bytes), ∃ msg, NewAddress strict (pfx (.base n p s) ++ 49 :: cs') spare = .err msg := by
  obtain ⟨cs, h1, hl, hn, hlen, hd⟩ := Detect.text_shape (.base n p s) ha (by intros; simp)
  have hb : (bytes (.base n p s)).length = 57 := by simp [bytes, copyZ]
  refine ⟨cs, h1, fun cs' hn' hl' hne hw strict spare => ?_⟩
  apply err_of_decode _ _ _ (looks_append _ _ hl)
  rcases hw with ⟨i, k, l, hw⟩ | ⟨i, k, l, m, a1, a2, a3, a4, a5, hw⟩
  · exact C09_bech32_detects_three _ cs cs' _ hd hn hn' hl' hne (by omega) i k l hw
  · exact C09_bech32_detects_four_long _ cs cs' _ hd hn hn' hl' hne (by omega) i k l m a1 a2 a3 a4 a5 hw

/-- A main net base address and its text with the character at position 49 replaced by the separator `1`. -/
def separatorTypo : Bytes × Bytes :=
  (asc "addr1qyunfpwfceqgtxznyggxgaulsvwxtdmqldvvlxkxtwqjqv8qqfecht3jrcl0vkz6cpmphhjt39hfwd2htjjaw35helgs3a3q97".toList,
   asc "addr1qyunfpwfceqgtxznyggxgaulsvwxtdmqldvvlxkxtwqj1v8qqfecht3jrcl0vkz6cpmphhjt39hfwd2htjjaw35helgs3a3q97".toList)

/-- **C56 (the separator).** The condition that no data character becomes a `1` is necessary: the text of a base address in which a single character
is replaced by `1` and which `NewAddress` accepts as an enterprise address.  (It ignores that the human-readable part is then
`addr1qyunfpwfceqgtxznyggxgaulsvwxtdmqldvvlxkxtwqj`, see C57.) -/
theorem C56_separator_typo_accepted :
    (∃ p s, NewAddress true separatorTypo.1 [] = .ok (.base MainNet p s) ∧ string (.base MainNet p s) = .ok separatorTypo.1) ∧
    (∃ p, NewAddress true separatorTypo.2 [] = .ok (.enterprise MainNet p)) ∧
    separatorTypo.1.length = separatorTypo.2.length ∧ (∀ j, j ≠ 49 → separatorTypo.2[j]? = separatorTypo.1[j]?) := by
  refine ⟨?_, ?_, by decide +kernel, ?_⟩
  · have h : (match NewAddress true separatorTypo.1 [] with
        | .ok (.base n p s) => decide (n = MainNet ∧ string (.base MainNet p s) = .ok separatorTypo.1)
        | _ => false) = true := by decide +kernel
    revert h
    cases NewAddress true separatorTypo.1 [] with
    | ok a =>
      cases a with
      | base n p s => intro h; obtain ⟨rfl, h2⟩ := of_decide_eq_true h; exact ⟨p, s, rfl, h2⟩
      | _ => intro h; cases h
    | err m => intro h; cases h
    | panic => intro h; cases h
  · have h : (match NewAddress true separatorTypo.2 [] with
        | .ok (.enterprise n _) => decide (n = MainNet)
        | _ => false) = true := by decide +kernel
    revert h
    cases NewAddress true separatorTypo.2 [] with
    | ok a =>
      cases a with
      | enterprise n p => intro h; obtain rfl := of_decide_eq_true h; exact ⟨p, rfl⟩
      | _ => intro h; cases h
    | err m => intro h; cases h
    | panic => intro h; cases h
  · have hall : ∀ j : Fin 103, j.val ≠ 49 → separatorTypo.2[j.val]? = separatorTypo.1[j.val]? := by decide +kernel
    intro j h1
    by_cases hj : j < 103
    · exact hall ⟨j, hj⟩ h1
    · have l1 : separatorTypo.1.length = 103 := by decide +kernel
      have l2 : separatorTypo.2.length = 103 := by decide +kernel
      rw [List.getElem?_eq_none (by omega), List.getElem?_eq_none (by omega)]

/-- The hypotheses can be met: the stake address of the repository's tests (53 data characters) with four characters changed, wide apart. -/
example : ∃ cs' : Bytes, cs'.length = sampleStake.2.length ∧ (49 : UInt8) ∉ cs' ∧ toLower cs' ≠ toLower sampleStake.2 ∧ sampleStake.2.length ≤ 89 ∧
    (∀ j : Fin 60, j.val ≠ 0 → j.val ≠ 17 → j.val ≠ 33 → j.val ≠ 52 → cs'[j.val]? = sampleStake.2[j.val]?) ∧
    (Decode (sampleStake.1 ++ 49 :: sampleStake.2)).isOk = true :=
  ⟨asc "pqevw2xnsc0pvn9t9q9c7qryfqfeerchgplm3ea2nefr9hqp8n5xm".toList, by decide +kernel⟩

end Cardano.Props
