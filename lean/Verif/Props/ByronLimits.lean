import Verif.Byron.Limits
import Verif.Props.Byron
/-!
# Addresses read with the limits of the CBOR library (C04, C05, C06, C12, C48)
-/
set_option autoImplicit false

namespace Cardano.Props
open Addr Spec Cbor

theorem fromBytesL_panic (ok : Item → Bool) (strict : Bool) (data spare : Bytes) :
    NewAddressFromBytesL ok strict data spare = .panic ↔ NewAddressFromBytes strict data spare = .panic := by
  constructor
  · intro h
    rcases fromBytesL_cases ok strict data spare with e | ⟨m, e⟩
    · rw [← e]; exact h
    · rw [e] at h; cases h
  · intro h
    cases data with
    | nil => rfl
    | cons hd t =>
      by_cases hty : (hd &&& 0xF0) >>> 4 = 8
      · simp only [NewAddressFromBytes, hty, if_true] at h
        cases hu : Byron.unmarshal strict (hd :: t) with
        | ok b => rw [hu] at h; cases h
        | err m => rw [hu] at h; cases h
        | panic => exact absurd hu (byron_not_panic strict _)
      · simpa only [NewAddressFromBytesL, hty, if_false] using h

/-- `r` is what is left of `r'` when some inputs are refused with an error: the same answer, or an error in place of an answer
that is not a panic. -/
def Refuses {α : Type} (r r' : Res α) : Prop := r = r' ∨ ((∃ m, r = .err m) ∧ r' ≠ .panic)

theorem Refuses.ok {α : Type} {r r' : Res α} (h : Refuses r r') {a : α} (ha : r = .ok a) : r' = .ok a := by
  rcases h with e | ⟨⟨m, e⟩, _⟩
  · rw [← e]; exact ha
  · rw [e] at ha; cases ha

theorem Refuses.panic {α : Type} {r r' : Res α} (h : Refuses r r') : r = .panic ↔ r' = .panic := by
  rcases h with e | ⟨⟨m, e⟩, hp⟩
  · rw [e]
  · rw [e]; exact ⟨fun h => (by cases h), fun h => absurd h hp⟩

theorem fromBytesL_refuses (ok : Item → Bool) (strict : Bool) (data spare : Bytes) :
    Refuses (NewAddressFromBytesL ok strict data spare) (NewAddressFromBytes strict data spare) := by
  rcases fromBytesL_cases ok strict data spare with e | ⟨m, e⟩
  · exact .inl e
  · refine .inr ⟨⟨m, e⟩, fun h => ?_⟩
    rw [(fromBytesL_panic ok strict data spare).2 h] at e
    cases e

/-- **C04 with limits.** Whatever items the CBOR library refuses, if it lets the items of Byron addresses through (arrays of at
most three elements nested twice), the bytes and the string of every Byron address are read back. The documented limits are
such (`Byron.within_modest`). -/
theorem C04_limits_roundtrip (ok : Item → Bool) (hok : Byron.Modest ok) (strict : Bool) (b : ByronAddress) (spare : Bytes)
    (h : ByronOk b) :
    NewAddressFromBytesL ok strict (bytes (.byron b)) spare = .ok (.byron b) ∧
    ((bytes (.byron b)).length < 2039213 →
      ∃ s, string (.byron b) = .ok s ∧ NewAddressL ok strict s spare = .ok (.byron b)) := by
  have main : NewAddressFromBytesL ok strict (bytes (.byron b)) spare = .ok (.byron b) := by
    obtain ⟨t, e⟩ := Byron.bytes_cons b
    have he : bytes (.byron b) = 0x82 :: t := e
    have hu := Byron.unmarshalL_of ok hok strict b h
    rw [e] at hu
    rw [he]
    have hty : ((0x82 : UInt8) &&& 0xF0) >>> 4 = 8 := by decide
    simp only [NewAddressFromBytesL, hty, if_true, hu]
    rfl
  refine ⟨main, fun hp => ⟨_, rfl, ?_⟩⟩
  unfold NewAddressL
  rw [if_neg (by rw [Byron.long_not_bech32 b (byron_raw_min b h) hp]; decide), Base58.decode_encode]
  exact main

/-- **C04, C05, C06, C12, C48 with limits.** Whatever items the CBOR library refuses: an address that is accepted is the one
that the model without limits gives, and the panics are the same. So all that is proved of accepted addresses and of panics
holds with the limits too. -/
theorem C04_limits_refine (ok : Item → Bool) (strict : Bool) (s spare : Bytes) :
    ((∀ a, NewAddressFromBytesL ok strict s spare = .ok a → NewAddressFromBytes strict s spare = .ok a) ∧
      (NewAddressFromBytesL ok strict s spare = .panic ↔ NewAddressFromBytes strict s spare = .panic)) ∧
    ((∀ a, NewAddressL ok strict s spare = .ok a → NewAddress strict s spare = .ok a) ∧
      (NewAddressL ok strict s spare = .panic ↔ NewAddress strict s spare = .panic)) ∧
    ((∀ a, NewAddressFromHexL ok strict s spare = .ok a → NewAddressFromHex strict s spare = .ok a) ∧
      (NewAddressFromHexL ok strict s spare = .panic ↔ NewAddressFromHex strict s spare = .panic)) := by
  have h1 := fromBytesL_refuses ok strict s spare
  have h2 : Refuses (NewAddressL ok strict s spare) (NewAddress strict s spare) := by
    unfold NewAddressL NewAddress
    split
    · cases Bech32.Decode s with
      | ok p => exact fromBytesL_refuses ok strict _ spare
      | err m => exact .inl rfl
      | panic => exact .inl rfl
    · exact fromBytesL_refuses ok strict _ spare
  have h3 : Refuses (NewAddressFromHexL ok strict s spare) (NewAddressFromHex strict s spare) := by
    unfold NewAddressFromHexL NewAddressFromHex
    rcases Hex.decode s with ⟨data, _ | e⟩
    · exact fromBytesL_refuses ok strict _ spare
    · exact .inl rfl
  exact ⟨⟨fun _ => h1.ok, h1.panic⟩, ⟨fun _ => h2.ok, h2.panic⟩, ⟨fun _ => h3.ok, h3.panic⟩⟩

/-- Addresses of the Shelley era are read the same, whatever the limits. -/
theorem C04_limits_shelley (ok : Item → Bool) (strict : Bool) (hd : UInt8) (t spare : Bytes) (h : hd.toNat / 16 ≠ 8) :
    NewAddressFromBytesL ok strict (hd :: t) spare = NewAddressFromBytes strict (hd :: t) spare := by
  have hty : (hd &&& 0xF0) >>> 4 ≠ 8 := fun e => h ((ty_eq hd 8 (by decide)).1 e)
  simp only [NewAddressFromBytesL, hty, if_false]

/-- Non-vacuity: the limits of the library, with a check of texts that refuses every text. -/
example : Byron.Modest (Byron.within (fun _ => false) 32) := Byron.within_modest _ _ (by decide)

/-- The limits refuse something: an array of depth 33. -/
example : Byron.within (fun _ => true) 32 ((fun x => Item.array [x])^[33] (.uint 0)) = false ∧
    Byron.within (fun _ => true) 32 ((fun x => Item.array [x])^[32] (.uint 0)) = true := by decide +kernel

end Cardano.Props
