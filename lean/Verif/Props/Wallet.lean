import Verif.Props.Sign
/-!
# Property C64: keys, addresses and witnesses fit together
-/
set_option autoImplicit false

namespace Cardano.Props
open Bip32 TxBuilder Transaction Cbor Addr Cardano.Ed

/-- CIP-19: the address with these bytes is paid to the holder of the key with this public key: type 0, 2, 4 or 6, and the Blake2b-224 hash of
the public key after the header. -/
def PaysTo (blake224 : Bytes → Bytes) (addr vkey : Bytes) : Prop :=
  ∃ h rest, addr = h :: (blake224 vkey ++ rest) ∧ (h.toNat / 16 = 0 ∨ h.toNat / 16 = 2 ∨ h.toNat / 16 = 4 ∨ h.toNat / 16 = 6)

/-- CIP-19: the reward address with these bytes belongs to the key with this public key (type 14). -/
def RewardOf (blake224 : Bytes → Bytes) (addr vkey : Bytes) : Prop := ∃ h, addr = h :: blake224 vkey ∧ h.toNat / 16 = 14

/-- The credential of a key, as a program obtains it: `NewKeyStakeCredential(key.Public().PublicKey().Hash())`. -/
def credOf (blake224 : Bytes → Bytes) (key : Bytes) : Res Cred := do
  let pk ← PublicKey (← Public makePublicKey key)
  return NewKeyStakeCredential (Hash blake224 pk)

/-- **C64.** Addresses made from the public key hash of a key are addresses of the public key that `Build` writes into the witness for
that key: base, enterprise and pointer addresses with it as payment credential, and reward addresses with it as stake credential, on every
network and with key or script stake credentials. -/
theorem C64_witness_matches_address (H : Hashes) (blake224 : Bytes → Bytes) (h224 : ∀ m, (blake224 m).length = 28)
    (blake256 : Bytes → Bytes) (b b' : Builder) (h : Handle) (e : Build (packageCrypto H blake256) b = (.ok h, b')) :
    All2 (fun (w : VKeyWitness) key => ∃ c, credOf blake224 key = .ok c ∧ ∀ net : NetworkInfo,
        (∀ stake : Cred, stake.kind = 0 ∨ stake.kind = 1 → PaysTo blake224 (bytes (NewBaseAddress net c stake)) w.vkey) ∧
        PaysTo blake224 (bytes (NewEnterpriseAddress net c)) w.vkey ∧
        (∀ p, PaysTo blake224 (bytes (NewPointerAddress net c p)) w.vkey) ∧
        RewardOf blake224 (bytes (NewRewardAddress net c)) w.vkey)
      (view b' h).witness b.xprvs := by
  obtain ⟨-, bb, -, h2⟩ := C24_build_signs_body _ b b' h e
  generalize (view b' h).witness = ws at *
  generalize b.xprvs = ks at *
  induction h2 with
  | nil => exact .nil
  | @cons w k ws ks hw _ ih =>
    refine .cons ?_ ih
    have p1 : (Public makePublicKey k >>= PublicKey) = .ok w.vkey := hw.1
    have hb : (blake224 w.vkey).take 28 = blake224 w.vkey := List.take_of_length_le (by rw [h224])
    refine ⟨⟨0, blake224 w.vkey⟩, ?_, fun net => ?_⟩
    · unfold credOf
      cases hp : Public makePublicKey k with
      | err m => rw [hp] at p1; cases p1
      | panic => rw [hp] at p1; cases p1
      | ok x =>
        rw [hp] at p1
        have p1 : PublicKey x = .ok w.vkey := p1
        simp only [Res.ok_bind]
        rw [p1]
        simp only [Res.ok_bind, Hash, hb]
        rfl
    · have hc : copyZ 28 (blake224 w.vkey) = blake224 w.vkey := copyZ_eq _ _ (h224 _)
      have hdr : ∀ n : UInt8, ((0 : UInt8) ||| (n &&& 0xf)).toNat / 16 = 0 ∧ ((0x20 : UInt8) ||| (n &&& 0xf)).toNat / 16 = 2 ∧
        ((0x60 : UInt8) ||| (0 : UInt8) <<< 4 ||| (n &&& 0xf)).toNat / 16 = 6 ∧ ((0x40 : UInt8) ||| (0 : UInt8) <<< 4 ||| (n &&& 0xF)).toNat / 16 = 4 ∧
        ((0xe0 : UInt8) ||| (0 : UInt8) <<< 4 ||| (n &&& 0xf)).toNat / 16 = 14 := forall_byte (by decide +kernel)
      obtain ⟨d0, d2, d6, d4, d14⟩ := hdr net.networkId
      refine ⟨?_, ?_, ?_, ?_⟩
      · intro stake hs
        refine ⟨_, copyZ 28 stake.payload, by simp only [NewBaseAddress, Addr.bytes, hc]; rfl, ?_⟩
        rcases hs with hs | hs <;> rw [hs]
        · exact .inl d0
        · exact .inr (.inl d2)
      · exact ⟨_, [], by simp only [NewEnterpriseAddress, Addr.bytes, hc, List.append_nil], .inr (.inr (.inr d6))⟩
      · intro p
        exact ⟨_, VariableNatEncode p.slot ++ VariableNatEncode p.txIndex ++ VariableNatEncode p.certIndex,
          by simp only [NewPointerAddress, Addr.bytes, List.append_assoc, List.cons_append], .inr (.inr (.inl d4))⟩
      · exact ⟨_, by simp only [NewRewardAddress, Addr.bytes, hc], d14⟩

/-- A builder with a key, whose transaction has a witness, so that the list of the theorem is not empty. -/
example (H : Hashes) (hH : H.Ok) (blake256 : Bytes → Bytes) (p : Protocol) (key : Bytes) (hk : key.length = 96) (hs : leNat (key.take 32) < 2 ^ 255) :
    ∃ h b' w, Build (packageCrypto H blake256) (NewTxBuilder p [key]) = (.ok h, b') ∧ (view b' h).witness = [w] := by
  obtain ⟨h, b', e, -⟩ := build_one_key H hH blake256 p key hk hs
  obtain ⟨_, _, h2⟩ := C60_witnesses_verify H hH blake256 _ b' h e (by
    intro k hk'
    have : k ∈ [key] := hk'
    rw [List.mem_singleton.1 this]; exact ⟨hk, hs⟩)
  have h3 : (NewTxBuilder p [key]).xprvs = [key] := rfl
  rw [h3] at h2
  obtain ⟨w, ws, hw⟩ : ∃ w ws, (view b' h).witness = w :: ws := by
    cases hv : (view b' h).witness with
    | nil => rw [hv] at h2; cases h2
    | cons w ws => exact ⟨w, ws, rfl⟩
  rw [hw] at h2
  have : ws = [] := by
    cases ws with
    | nil => rfl
    | cons x xs => cases h2 with | cons _ h => cases h
  exact ⟨h, b', w, e, by rw [hw, this]⟩

end Cardano.Props
