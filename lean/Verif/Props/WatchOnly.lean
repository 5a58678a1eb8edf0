import Verif.Props.Restore
/-!
# Property C114: watch-only wallets
-/
set_option autoImplicit false

namespace Cardano.Props
open Cbor TxSpec Transaction TxBuilder Addr Bip32 Spec
open Ledger (read refOf outOf Env UTxO)

/-- **C114.** A wallet has the extended public key of an account, made by the package after any path, and computes public keys, credentials and address texts with the public
derivation of BIP32-Ed25519. For every path without hardened steps the derivation exists, has one result, and the text is the one that the package makes from the
private key; what has been paid to it can be spent with the private key restored from the entropy. -/
theorem C114_watch_only (H : Hashes) (hH : H.Ok) (blake224 blake256 : Bytes → Bytes) (h224 : ∀ m, (blake224 m).length = 28) (h256 : ∀ m, (blake256 m).length = 32)
    (entropy password : Bytes) (path soft : List UInt32) (hsoft : ∀ i ∈ soft, i.toNat < 2 ^ 31) (hp : path.length + soft.length < 2 ^ 26) (main : Bool)
    (stake : Option (Bool × Bytes)) (hst : ∀ x ∈ stake, x.2.length = 28) :
    ∃ root account xpub key c pk text, FromBip39Entropy H entropy password = .ok root ∧ derivePath H makePublicKey root path = .ok account ∧
      Public makePublicKey account = .ok xpub ∧ derivePath H makePublicKey root (path ++ soft) = .ok key ∧ (packageCrypto H blake256).publicKey key = .ok pk ∧
      credOf blake224 key = .ok c ∧ Addr.string (addressFor main c stake) = .ok text ∧ (∃ watched, PublicPath H xpub soft watched) ∧
      (∀ watched, PublicPath H xpub soft watched → Addr.string (addressFor main (NewKeyStakeCredential (blake224 (watched.take 32))) stake) = .ok text) ∧
      ∀ strict spare, ∃ a, Addr.NewAddress strict text spare = .ok a ∧
        ∀ (b : Builder) (bs : Bytes) (j : Nat) (amount : UInt64) (u : UTxO) (v : Ledger.TxView), BuilderFits b → Finishes (packageCrypto H blake256) b bs →
          b.body.outputs[j]? = some ⟨a, amount⟩ → j < 2 ^ 16 → read bs = some v →
          let u' := Ledger.apply (ledgerCrypto H blake224 blake256) u v
          let i := NewTxInput (Hex.encode (blake256 v.body)) (UInt16.ofNat j) amount
          Owns blake224 u' pk [i] ∧
          ∀ network slot s t bs', Payment blake224 (packageCrypto H blake256) key pk network slot [i] s t bs' →
            Ledger.Valid (ledgerCrypto H blake224 blake256) (envOf s.protocol network slot) u' bs' := by
  obtain ⟨root, e1, hr, -⟩ := C32_bip39_root_key H hH entropy password
  obtain ⟨account, xpub, key, xpub', d1, d2, d3, d4, d5⟩ := C35_soft_path H hH root hr path soft hsoft hp
  obtain ⟨root', key', c, text, pk, f1, f2, f3, f4, f5, f6⟩ :=
    C110_spendable H hH blake224 blake256 h224 h256 entropy password (path ++ soft) (by rw [List.length_append]; exact hp) main stake hst
  rw [e1] at f1
  obtain rfl := Res.ok.inj f1
  rw [d3] at f2
  obtain rfl := Res.ok.inj f2
  have hpk : (packageCrypto H blake256).publicKey key = PublicKey xpub' := by
    show (Public makePublicKey key >>= PublicKey) = _
    rw [d4]; rfl
  have hx : xpub'.take 32 = pk := by
    rw [hpk] at f5
    unfold PublicKey at f5
    split at f5
    · cases f5
    · exact Res.ok.inj f5
  refine ⟨root, account, xpub, key, c, pk, text, e1, d1, d2, d3, f5, f3, f4, ⟨_, d5⟩, fun w hw => ?_, f6⟩
  rw [hw.unique d5, hx]
  obtain ⟨key2, g1, hk, -, -, hs⟩ := C34_path_scalars H hH makePublicKey root hr (path ++ soft) (by rw [List.length_append]; exact hp)
  rw [d3] at g1
  obtain rfl := Res.ok.inj g1
  obtain ⟨pk', k1, k2⟩ := credOf_key blake224 h224 H blake256 key hk hs
  rw [f5] at k1
  obtain rfl := Res.ok.inj k1
  rw [f3] at k2
  rw [Res.ok.inj k2] at f4
  exact f4

/-- **C114 with the hash functions of the standards.** -/
theorem C114_real (entropy password : Bytes) (path soft : List UInt32) (hsoft : ∀ i ∈ soft, i.toNat < 2 ^ 31) (hp : path.length + soft.length < 2 ^ 26) (main : Bool)
    (stake : Option (Bool × Bytes)) (hst : ∀ x ∈ stake, x.2.length = 28) :
    ∃ root account xpub key c pk text, FromBip39Entropy Hash.real entropy password = .ok root ∧ derivePath Hash.real makePublicKey root path = .ok account ∧
      Public makePublicKey account = .ok xpub ∧ derivePath Hash.real makePublicKey root (path ++ soft) = .ok key ∧ (packageCrypto Hash.real (Hash.Blake2b.hash 32)).publicKey key = .ok pk ∧
      credOf (Hash.Blake2b.hash 28) key = .ok c ∧ Addr.string (addressFor main c stake) = .ok text ∧ (∃ watched, PublicPath Hash.real xpub soft watched) ∧
      (∀ watched, PublicPath Hash.real xpub soft watched → Addr.string (addressFor main (NewKeyStakeCredential (Hash.Blake2b.hash 28 (watched.take 32))) stake) = .ok text) ∧
      ∀ strict spare, ∃ a, Addr.NewAddress strict text spare = .ok a ∧
        ∀ (b : Builder) (bs : Bytes) (j : Nat) (amount : UInt64) (u : UTxO) (v : Ledger.TxView), BuilderFits b → Finishes (packageCrypto Hash.real (Hash.Blake2b.hash 32)) b bs →
          b.body.outputs[j]? = some ⟨a, amount⟩ → j < 2 ^ 16 → read bs = some v →
          let u' := Ledger.apply (ledgerCrypto Hash.real (Hash.Blake2b.hash 28) (Hash.Blake2b.hash 32)) u v
          let i := NewTxInput (Hex.encode (Hash.Blake2b.hash 32 v.body)) (UInt16.ofNat j) amount
          Owns (Hash.Blake2b.hash 28) u' pk [i] ∧
          ∀ network slot s t bs', Payment (Hash.Blake2b.hash 28) (packageCrypto Hash.real (Hash.Blake2b.hash 32)) key pk network slot [i] s t bs' →
            Ledger.Valid (ledgerCrypto Hash.real (Hash.Blake2b.hash 28) (Hash.Blake2b.hash 32)) (envOf s.protocol network slot) u' bs' :=
  C114_watch_only Hash.real Hash.real_ok (Hash.Blake2b.hash 28) (Hash.Blake2b.hash 32) (Hash.Blake2b.hash_length 28 (by decide)) (Hash.Blake2b.hash_length 32 (by decide))
    entropy password path soft hsoft hp main stake hst

/-- C114: the paths of CIP-1852, account 1852'/1815'/0' and external address 7. -/
example : (∀ i ∈ [(0 : UInt32), 7], i.toNat < 2 ^ 31) ∧ [(0x80000000 + 1852 : UInt32), 0x80000000 + 1815, 0x80000000].length + [(0 : UInt32), 7].length < 2 ^ 26 := by decide

end Cardano.Props
