import Verif.Props.Chain
import Verif.Props.Destinations
import Verif.Props.Formats
import Verif.Props.Keys
import Verif.Hash.Hmac
import Verif.Hash.Blake2b
/-!
# Property C110: from the entropy to the spent output
-/
set_option autoImplicit false

namespace Cardano.Props
open Cbor TxSpec Transaction TxBuilder Addr Bip32 Spec
open Ledger (read refOf outOf Env UTxO)

/-- The address of a payment credential: with a key or script hash as stake credential a base address, otherwise an enterprise address. -/
def addressFor (main : Bool) (c : Cred) : Option (Bool × Bytes) → Address
  | some (script, h) => NewBaseAddress (cip19Net main) c (credFor script h)
  | none => NewEnterpriseAddress (cip19Net main) c

/-- The credential of a key names the public key of its witnesses. -/
theorem credOf_key (blake224 : Bytes → Bytes) (h224 : ∀ m, (blake224 m).length = 28) (H : Hashes) (blake256 : Bytes → Bytes) (key : Bytes) (hk : key.length = 96)
    (hs : leNat (key.take 32) < 2 ^ 255) : ∃ pk, (packageCrypto H blake256).publicKey key = .ok pk ∧ credOf blake224 key = .ok ⟨0, blake224 pk⟩ := by
  obtain ⟨pk, x, h1, h2, h3, -⟩ := C36_public_key key hk hs
  refine ⟨pk, by rw [packageCrypto_publicKey H blake256 key hk hs, h1], ?_⟩
  unfold credOf
  rw [h2]; simp only [Res.ok_bind]
  rw [h3]; simp only [Res.ok_bind, Bip32.Hash]
  rw [List.take_of_length_le (by rw [h224])]
  rfl

theorem addressFor_paysTo (blake224 : Bytes → Bytes) (h224 : ∀ m, (blake224 m).length = 28) (pk : Bytes) (main : Bool) (stake : Option (Bool × Bytes))
    (hst : ∀ x ∈ stake, x.2.length = 28) : PaysTo blake224 (Addr.bytes (addressFor main ⟨0, blake224 pk⟩ stake)) pk := by
  have e : (⟨0, blake224 pk⟩ : Cred) = credFor false (blake224 pk) := rfl
  rw [e]
  cases stake with
  | none =>
    have hb := (C65_constructed_bytes main false false (blake224 pk) (blake224 pk) (h224 _) (h224 _) 0 0 0).2.1
    unfold addressFor
    rw [hb]
    exact ⟨_, [], by rw [List.append_nil], by cases main <;> decide⟩
  | some x =>
    obtain ⟨ss, h⟩ := x
    have hb := (C65_constructed_bytes main false ss (blake224 pk) h (h224 _) (hst _ rfl) 0 0 0).1
    unfold addressFor
    dsimp only
    rw [hb]
    exact ⟨_, h, rfl, by cases main <;> cases ss <;> decide⟩

/-- **C110.** For every entropy, password and path below `2^26` steps: the key, its credential and the text of the address can be made; whoever reads the text pays to that
address; and what any transaction of the package has paid to it can be spent with the key, which the entropy restores. -/
theorem C110_spendable (H : Hashes) (hH : H.Ok) (blake224 blake256 : Bytes → Bytes) (h224 : ∀ m, (blake224 m).length = 28) (h256 : ∀ m, (blake256 m).length = 32)
    (entropy password : Bytes) (path : List UInt32) (hp : path.length < 2 ^ 26) (main : Bool) (stake : Option (Bool × Bytes)) (hst : ∀ x ∈ stake, x.2.length = 28) :
    ∃ root key c text pk, FromBip39Entropy H entropy password = .ok root ∧ derivePath H makePublicKey root path = .ok key ∧ credOf blake224 key = .ok c ∧
      Addr.string (addressFor main c stake) = .ok text ∧ (packageCrypto H blake256).publicKey key = .ok pk ∧
      ∀ strict spare, ∃ a, Addr.NewAddress strict text spare = .ok a ∧
        ∀ (b : Builder) (bs : Bytes) (j : Nat) (amount : UInt64) (u : UTxO) (v : Ledger.TxView), BuilderFits b → Finishes (packageCrypto H blake256) b bs →
          b.body.outputs[j]? = some ⟨a, amount⟩ → j < 2 ^ 16 → read bs = some v →
          let u' := Ledger.apply (ledgerCrypto H blake224 blake256) u v
          let i := NewTxInput (Hex.encode (blake256 v.body)) (UInt16.ofNat j) amount
          Owns blake224 u' pk [i] ∧
          ∀ network slot s t bs', Payment blake224 (packageCrypto H blake256) key pk network slot [i] s t bs' →
            Ledger.Valid (ledgerCrypto H blake224 blake256) (envOf s.protocol network slot) u' bs' := by
  obtain ⟨root, e1, hr, -⟩ := C32_bip39_root_key H hH entropy password
  obtain ⟨key, e2, hk, -, -, hs⟩ := C34_path_scalars H hH makePublicKey root hr path hp
  obtain ⟨pk, e3, e4⟩ := credOf_key blake224 h224 H blake256 key hk hs
  have hpay := addressFor_paysTo blake224 h224 pk main stake hst
  have hok : ShelleyOk (addressFor main ⟨0, blake224 pk⟩ stake) := by
    have hn : NetOk (cip19Net main) := by cases main; exacts [.inr rfl, .inl rfl]
    cases stake with
    | none => exact ⟨hn, .inl rfl, h224 _⟩
    | some x =>
      obtain ⟨ss, h⟩ := x
      exact ⟨hn, ⟨.inl rfl, h224 _⟩, by cases ss; exacts [⟨.inl rfl, hst _ rfl⟩, ⟨.inr rfl, hst _ rfl⟩]⟩
  have hnp : ∀ n p s, addressFor main ⟨0, blake224 pk⟩ stake ≠ .pointer n p s := by
    cases stake with
    | none => exact nofun
    | some x => exact nofun
  obtain ⟨text, e5, -⟩ := C02_string_roundtrip_partial true _ [] hok hnp
  refine ⟨root, key, _, text, pk, e1, e2, e4, e5, e3, fun strict spare => ⟨addressFor main ⟨0, blake224 pk⟩ stake, ?_, ?_⟩⟩
  · obtain ⟨t, h1, -, h2⟩ := C02_string_roundtrip_partial strict _ spare hok hnp
    rw [e5] at h1
    rw [Res.ok.inj h1]
    exact h2
  · intro b bs j amount u v hf hy hj hj16 hv u' i
    obtain ⟨-, ro, -⟩ := finish_read H hH blake256 h256 b bs hf hy v hv
    have hi : i = ⟨blake256 v.body, UInt16.ofNat j, amount⟩ := by
      show NewTxInput _ _ _ = _
      unfold NewTxInput
      rw [hex_decode_of (isHexOf_encode _)]
    have hown : Owns blake224 u' pk [i] := by
      refine ⟨⟨?_, ?_⟩, by simp⟩
      · intro x hx
        rw [List.mem_singleton.1 hx, hi]
        exact h256 _
      · intro x hx
        rw [List.mem_singleton.1 hx]
        refine ⟨_, ?_, pk, List.mem_singleton.2 rfl, hpay⟩
        rw [hi]
        show Ledger.apply _ u v (blake256 v.body, (UInt16.ofNat j).toNat) = _
        unfold Ledger.apply
        rw [if_pos (show blake256 v.body = (ledgerCrypto H blake224 blake256).hash256 v.body from rfl), UInt16.toNat_ofNat', Nat.mod_eq_of_lt hj16, ro, List.getElem?_map, hj]
        rfl
    refine ⟨hown, ?_⟩
    intro network slot s t bs' hpm
    have hsum : sumIn [i] < 2 ^ 64 := by
      show i.amount.toNat + 0 < _
      exact i.amount.toNat_lt
    obtain ⟨v', -, r, ha, -⟩ := C108_payment H hH blake224 blake256 h256 key pk network slot u' [i] s t bs' ⟨hk, hs⟩ e3 hown hsum hpm
    exact ⟨v', r, ha⟩

/-- **C110 with the hash functions of the standards**: SHA-512, HMAC, PBKDF2 and Blake2b instead of parameters. -/
theorem C110_real (entropy password : Bytes) (path : List UInt32) (hp : path.length < 2 ^ 26) (main : Bool) (stake : Option (Bool × Bytes)) (hst : ∀ x ∈ stake, x.2.length = 28) :
    ∃ root key c text pk, FromBip39Entropy Hash.real entropy password = .ok root ∧ derivePath Hash.real makePublicKey root path = .ok key ∧
      credOf (Hash.Blake2b.hash 28) key = .ok c ∧
      Addr.string (addressFor main c stake) = .ok text ∧ (packageCrypto Hash.real (Hash.Blake2b.hash 32)).publicKey key = .ok pk ∧
      ∀ strict spare, ∃ a, Addr.NewAddress strict text spare = .ok a ∧
        ∀ (b : Builder) (bs : Bytes) (j : Nat) (amount : UInt64) (u : UTxO) (v : Ledger.TxView), BuilderFits b → Finishes (packageCrypto Hash.real (Hash.Blake2b.hash 32)) b bs →
          b.body.outputs[j]? = some ⟨a, amount⟩ → j < 2 ^ 16 → read bs = some v →
          let u' := Ledger.apply (ledgerCrypto Hash.real (Hash.Blake2b.hash 28) (Hash.Blake2b.hash 32)) u v
          let i := NewTxInput (Hex.encode (Hash.Blake2b.hash 32 v.body)) (UInt16.ofNat j) amount
          Owns (Hash.Blake2b.hash 28) u' pk [i] ∧
          ∀ network slot s t bs', Payment (Hash.Blake2b.hash 28) (packageCrypto Hash.real (Hash.Blake2b.hash 32)) key pk network slot [i] s t bs' →
            Ledger.Valid (ledgerCrypto Hash.real (Hash.Blake2b.hash 28) (Hash.Blake2b.hash 32)) (envOf s.protocol network slot) u' bs' :=
  C110_spendable Hash.real Hash.real_ok (Hash.Blake2b.hash 28) (Hash.Blake2b.hash 32) (Hash.Blake2b.hash_length 28 (by decide)) (Hash.Blake2b.hash_length 32 (by decide))
    entropy password path hp main stake hst

/-- C110: a transaction that pays to the address, here with the hash function of the examples, for which every key has the sample address. -/
example (H : Hashes) (hH : H.Ok) (blake256 : Bytes → Bytes) (h256 : ∀ m, (blake256 m).length = 32) :
    ∃ (main : Bool) (stake : Option (Bool × Bytes)) (b : Builder) (bs : Bytes) (v : Ledger.TxView), (∀ m, (toGolden m).length = 28) ∧ (∀ x ∈ stake, x.2.length = 28) ∧
      BuilderFits b ∧ Finishes (packageCrypto H blake256) b bs ∧ read bs = some v ∧
      ∀ pk, b.body.outputs[0]? = some ⟨addressFor main ⟨0, toGolden pk⟩ stake, 5000000⟩ := by
  obtain ⟨p, e, bs, pk, -, h1, h2, v, h3, -⟩ := sampleOps_accepted H hH toGolden blake256 h256
  refine ⟨true, some (false, goldenStake.payload), _, bs, v, fun _ => (by decide : goldenPayment.payload.length = 28), ?_, h1, h2, h3, fun _ => ?_⟩
  · intro x hx
    rw [← Option.some.inj hx]; decide
  · rfl

end Cardano.Props
