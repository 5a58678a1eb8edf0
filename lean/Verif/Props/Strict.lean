import Verif.Props.Altered
/-!
# Property C135: signatures pass strict verifiers

RFC 8032 leaves to verifiers what they do with points of small order and with the cofactor. The node checks signatures with libsodium, which is stricter than C37 asks for:
`crypto_sign_verify_detached` rejects a second half that is not below the group order, a first half or a public key of small order, and a public key whose coordinate is not
below the field prime, and compares the bytes of the point that it computes with the first half. Others use the equation multiplied with the cofactor.
-/
set_option autoImplicit false

namespace Cardano.Props
open Ed Bip32 Cbor TxSpec Transaction TxBuilder Addr
open Ledger (read refOf outOf witOf Env UTxO)

/-- `crypto_sign_verify_detached` of libsodium. `Encodes` asks for coordinates below the field prime, and a point has one encoding, so that the comparison of bytes is the
equation between points. -/
structure StrictlyValid (sha512 : Bytes → Bytes) (pk message sig : Bytes) : Prop where
  size : sig.length = 64
  canonical : leNat (sig.drop 32) < L
  point : ∃ R, Encodes (sig.take 32) R ∧ 8 • R ≠ 0
  key : ∃ A, Encodes pk A ∧ 8 • A ≠ 0 ∧ Encodes (sig.take 32) (leNat (sig.drop 32) • B + leNat (sha512 (sig.take 32 ++ pk ++ message)) • (-A))

/-- Strict verifiers accept less. -/
theorem StrictlyValid.valid {sha512 : Bytes → Bytes} {pk message sig : Bytes} (h : StrictlyValid sha512 pk message sig) : Valid sha512 pk message sig := by
  obtain ⟨A, h1, -, h3⟩ := h.key
  refine ⟨h.size, h.canonical, _, A, h3, h1, ?_⟩
  rw [smul_neg]
  abel

/-- Multiples of the base point have no small order but 0. -/
theorem small_order (n : Nat) : 8 • (n • B) = 0 ↔ n % L = 0 := by
  rw [← mul_nsmul', show (0 : Pt) = 0 • B from (zero_nsmul B).symm, C42_order.2, Nat.zero_mod]
  constructor
  · intro h
    exact Nat.mod_eq_zero_of_dvd (Nat.Coprime.dvd_of_dvd_mul_left (by decide +kernel) (Nat.dvd_of_mod_eq_zero h))
  · intro h
    exact Nat.mod_eq_zero_of_dvd (Dvd.dvd.mul_left (Nat.dvd_of_mod_eq_zero h) 8)

/-- **C135.** For every usable key (all that the package derives) and every message, the signature passes the strict verifier, unless the hash that makes the secret number
of the signature is a multiple of the group order; then it does not. -/
theorem C135_strict (H : Hashes) (hH : H.Ok) (key : Bytes) (hk : Usable key) (m sig pk : Bytes) (h : Sign H key m = .ok sig) (hpk : MakePublicKey key = .ok pk) :
    StrictlyValid H.sha512 pk m sig ↔ leNat (H.sha512 ((key.drop 32).take 32 ++ m)) % L ≠ 0 := by
  obtain ⟨_, -, p1, -, -, -, p2⟩ := C36_public_key key hk.size hk.small
  rw [hpk] at p1
  obtain rfl := Res.ok.inj p1
  obtain ⟨_, _, a1, a2, av⟩ := C37_signature_valid H hH key hk.size hk.small m
  rw [h] at a1
  obtain rfl := Res.ok.inj a1
  rw [hpk] at a2
  obtain rfl := Res.ok.inj a2
  obtain ⟨_, _, b1, -, b2, -⟩ := C37_nonce H hH key hk.size hk.small m
  rw [h] at b1
  obtain rfl := Res.ok.inj b1
  constructor
  · intro hs h0
    obtain ⟨R, r1, r2⟩ := hs.point
    rw [(C51_encoding_unique _).2 _ _ r1 b2] at r2
    exact r2 ((small_order _).2 h0)
  · intro h0
    refine ⟨av.size, av.small, ⟨_, b2, fun e => h0 ((small_order _).1 e)⟩, _, p2, fun e => hk.nonzero ((small_order _).1 e), ?_⟩
    obtain ⟨R, A, e1, e2, e3⟩ := av.equation
    rw [e3, (C51_encoding_unique _).2 _ _ e2 p2, smul_neg, add_neg_cancel_right]
    exact e1

/-- **C135, with the cofactor.** The signature also satisfies the equation multiplied with 8, the only one that RFC 8032 asks a verifier for, whatever the hash values. -/
theorem C135_cofactor (H : Hashes) (hH : H.Ok) (key : Bytes) (hk : key.length = 96) (hs : leNat (key.take 32) < 2 ^ 255) (m sig pk : Bytes) (h : Sign H key m = .ok sig)
    (hpk : MakePublicKey key = .ok pk) :
    ∃ R A : Pt, Encodes (sig.take 32) R ∧ Encodes pk A ∧
      (8 * leNat (sig.drop 32)) • B = 8 • R + (8 * leNat (H.sha512 (sig.take 32 ++ pk ++ m))) • A := by
  obtain ⟨_, _, a1, a2, av⟩ := C37_signature_valid H hH key hk hs m
  rw [h] at a1
  obtain rfl := Res.ok.inj a1
  rw [hpk] at a2
  obtain rfl := Res.ok.inj a2
  obtain ⟨R, A, e1, e2, e3⟩ := av.equation
  refine ⟨R, A, e1, e2, ?_⟩
  rw [mul_nsmul', e3, nsmul_add, ← mul_nsmul']

/-- **C135, verifiers agree.** For bytes that anybody may have made: if the first half is a multiple of the base point, a verifier with the cofactor accepts them for the key
exactly if one without does. (For other points they may differ, C37 and the rest of this file do not ask which verifier is used.) -/
theorem C135_agree (key pk : Bytes) (hk : key.length = 96) (hs : leNat (key.take 32) < 2 ^ 255) (hpk : MakePublicKey key = .ok pk) (r s c : Nat) (A : Pt) (hA : Encodes pk A) :
    (8 * s) • B = 8 • (r • B) + (8 * c) • A ↔ s • B = r • B + c • A := by
  obtain ⟨_, -, p1, -, -, -, p2⟩ := C36_public_key key hk hs
  rw [hpk] at p1
  obtain rfl := Res.ok.inj p1
  rw [(C51_encoding_unique _).2 _ _ hA p2, ← mul_nsmul', ← mul_nsmul', ← mul_nsmul', ← add_nsmul, ← add_nsmul, C42_order.2, C42_order.2]
  have hc : Nat.gcd L 8 = 1 := by decide +kernel
  rw [show 8 * r + 8 * c * leNat (key.take 32) = 8 * (r + c * leNat (key.take 32)) by ring]
  exact ⟨fun h => Nat.ModEq.cancel_left_of_coprime hc h, fun h => Nat.ModEq.mul_left 8 h⟩

/-- The ledger with the strict verifier. -/
def strictCrypto (H : Hashes) (blake224 blake256 : Bytes → Bytes) : Ledger.Crypto := ⟨blake224, blake256, StrictlyValid H.sha512⟩

/-- **C135, the ledger.** A ledger that verifies strictly accepts a built transaction exactly if the other one does (C77, C82, C87, ...), if no key has the exceptional hash. -/
theorem C135_ledger (H : Hashes) (hH : H.Ok) (blake224 blake256 : Bytes → Bytes) (h256 : ∀ m, (blake256 m).length = 32)
    (b : Builder) (bs : Bytes) (hf : BuilderFits b) (hk : ∀ k ∈ b.xprvs, Usable k) (hy : Finishes (packageCrypto H blake256) b bs)
    (v : Ledger.TxView) (hv : read bs = some v) (e : Env) (u : UTxO)
    (hn : ∀ k ∈ b.xprvs, leNat (H.sha512 ((k.drop 32).take 32 ++ blake256 v.body)) % L ≠ 0) :
    Ledger.Accepts (strictCrypto H blake224 blake256) e u v ↔ Ledger.Accepts (ledgerCrypto H blake224 blake256) e u v := by
  obtain ⟨-, hwit⟩ := finish_witnesses H hH blake256 h256 b bs hf hy v hv
  constructor
  · intro ⟨a1, a2, a3, a4, a5, a6, a7, a8, a9, a10, a11⟩
    exact ⟨a1, a2, a3, a4, a5, a6, a7, a8, fun w hw => (a9 w hw).valid, a10, a11⟩
  · intro ⟨a1, a2, a3, a4, a5, a6, a7, a8, a9, a10, a11⟩
    refine ⟨a1, a2, a3, a4, a5, a6, a7, a8, fun w hw => ?_, a10, a11⟩
    obtain ⟨key, hkey, w1, w2⟩ := hwit w hw
    have hu := hk key hkey
    obtain ⟨_, pk, -, s2, -⟩ := C37_signature_valid H hH key hu.size hu.small []
    have p1 := packageCrypto_publicKey H blake256 key hu.size hu.small
    rw [s2, w1] at p1
    obtain rfl := Res.ok.inj p1
    exact (C135_strict H hH key hu _ _ _ w2 s2).2 (hn key hkey)

/-- C135: a hash function with which the signatures of every usable key pass, and one with which they do not. -/
example (key : Bytes) (hk : Usable key) (m : Bytes) :
    (∃ H : Hashes, H.Ok ∧ ∃ sig pk, Sign H key m = .ok sig ∧ MakePublicKey key = .ok pk ∧ StrictlyValid H.sha512 pk m sig) ∧
    ∃ H : Hashes, H.Ok ∧ ∃ sig pk, Sign H key m = .ok sig ∧ MakePublicKey key = .ok pk ∧ Valid H.sha512 pk m sig ∧ ¬ StrictlyValid H.sha512 pk m sig := by
  constructor
  · let H : Hashes := ⟨fun _ => leBytes 64 1, zeroHashes.sha256, zeroHashes.hmac512, zeroHashes.pbkdf2⟩
    have hH : H.Ok := ⟨fun _ => leBytes_length _ _, fun _ => by simp [H, zeroHashes], fun _ _ => by simp [H, zeroHashes], fun _ _ => by simp [H, zeroHashes]⟩
    obtain ⟨sig, pk, a1, a2, -⟩ := C37_signature_valid H hH key hk.size hk.small m
    exact ⟨H, hH, sig, pk, a1, a2, (C135_strict H hH key hk m sig pk a1 a2).2 (by show leNat (leBytes 64 1) % L ≠ 0; decide +kernel)⟩
  · let H : Hashes := ⟨fun _ => leBytes 64 0, zeroHashes.sha256, zeroHashes.hmac512, zeroHashes.pbkdf2⟩
    have hH : H.Ok := ⟨fun _ => leBytes_length _ _, fun _ => by simp [H, zeroHashes], fun _ _ => by simp [H, zeroHashes], fun _ _ => by simp [H, zeroHashes]⟩
    obtain ⟨sig, pk, a1, a2, a3⟩ := C37_signature_valid H hH key hk.size hk.small m
    exact ⟨H, hH, sig, pk, a1, a2, a3, fun h => (C135_strict H hH key hk m sig pk a1 a2).1 h (by show leNat (leBytes 64 0) % L = 0; decide +kernel)⟩

/-- C135: a usable key, as they are derived. -/
example : Usable (leBytes 96 (2 ^ 254)) := ⟨by decide +kernel, by decide +kernel, by decide +kernel⟩

end Cardano.Props
