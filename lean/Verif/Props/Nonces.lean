import Verif.Props.Sign
/-!
# Property C115: two signatures with the same point
-/
set_option autoImplicit false

namespace Cardano.Props
open Ed Bip32

/-- **C115.** Two signatures, of any two messages with any two keys, begin with the same point exactly if the SHA-512 values of the secret halves and the messages are
congruent modulo the group order. -/
theorem C115_same_point (H : Hashes) (hH : H.Ok) (key key' : Bytes) (hk : key.length = 96) (hk' : key'.length = 96) (hs : leNat (key.take 32) < 2 ^ 255)
    (hs' : leNat (key'.take 32) < 2 ^ 255) (m m' sig sig' : Bytes) (h : Sign H key m = .ok sig) (h' : Sign H key' m' = .ok sig') :
    sig.take 32 = sig'.take 32 ↔
      leNat (H.sha512 ((key.drop 32).take 32 ++ m)) % L = leNat (H.sha512 ((key'.drop 32).take 32 ++ m')) % L := by
  obtain ⟨_, _, a1, -, a2, -⟩ := C37_nonce H hH key hk hs m
  obtain ⟨_, _, b1, -, b2, -⟩ := C37_nonce H hH key' hk' hs' m'
  rw [h] at a1
  obtain rfl := Res.ok.inj a1
  rw [h'] at b1
  obtain rfl := Res.ok.inj b1
  rw [← C42_order.2]
  constructor
  · intro e
    rw [e] at a2
    exact (C51_encoding_unique _).2 _ _ a2 b2
  · intro e
    rw [e] at a2
    exact (C51_encoding_unique _).1.unique a2 b2

/-- **C115**, what happens otherwise. If two signatures of one key begin with the same point, but the hash values of the verification equation are different modulo the group
order, then the public data give the secret scalar: the number computed from them makes the same public key. -/
theorem C115_key_leaks (H : Hashes) (hH : H.Ok) (key : Bytes) (hk : key.length = 96) (hs : leNat (key.take 32) < 2 ^ 255) (m m' sig sig' pk : Bytes)
    (h : Sign H key m = .ok sig) (h' : Sign H key m' = .ok sig') (hpk : MakePublicKey key = .ok pk) (e : sig.take 32 = sig'.take 32) :
    let c := leNat (H.sha512 (sig.take 32 ++ pk ++ m))
    let c' := leNat (H.sha512 (sig.take 32 ++ pk ++ m'))
    c % L ≠ c' % L →
      ∀ a : Nat, (leNat (sig.drop 32) + c' * a) % L = (leNat (sig'.drop 32) + c * a) % L ↔ a % L = leNat (key.take 32) % L := by
  intro c c' hc a
  obtain ⟨pk1, -, p1, -, -, -, p2⟩ := C36_public_key key hk hs
  rw [hpk] at p1
  obtain rfl := Res.ok.inj p1
  obtain ⟨_, _, a1, a2, av⟩ := C37_signature_valid H hH key hk hs m
  obtain ⟨_, _, b1, b2, bv⟩ := C37_signature_valid H hH key hk hs m'
  rw [h] at a1
  obtain rfl := Res.ok.inj a1
  rw [h'] at b1
  obtain rfl := Res.ok.inj b1
  rw [hpk] at a2 b2
  obtain rfl := Res.ok.inj a2
  obtain rfl := Res.ok.inj b2
  obtain ⟨R, A, r1, q1, e1⟩ := av.equation
  obtain ⟨R', A', r2, q2, e2⟩ := bv.equation
  rw [← e] at r2 e2
  obtain rfl := (C51_encoding_unique _).2 _ _ r1 r2
  obtain rfl := (C51_encoding_unique _).2 _ _ p2 q1
  obtain rfl := (C51_encoding_unique _).2 _ _ p2 q2
  have key0 : (leNat (sig.drop 32) + c' * leNat (key.take 32)) % L = (leNat (sig'.drop 32) + c * leNat (key.take 32)) % L := by
    rw [← C42_order.2, add_nsmul, add_nsmul, e1, e2, mul_nsmul', mul_nsmul', add_right_comm]
  generalize leNat (key.take 32) = s at *
  generalize leNat (sig.drop 32) = S at *
  generalize leNat (sig'.drop 32) = S' at *
  generalize c = x at *
  generalize c' = y at *
  have : Fact (Nat.Prime L) := ⟨prime_l⟩
  have toZ : ∀ u v : Nat, u % L = v % L ↔ (u : ZMod L) = v := fun u v => (ZMod.natCast_eq_natCast_iff' u v L).symm
  rw [toZ] at key0 ⊢
  rw [Ne, toZ] at hc
  rw [toZ]
  push_cast at key0 ⊢
  constructor
  · intro ha
    have : ((y : ZMod L) - x) * ((a : ZMod L) - s) = 0 := by linear_combination ha - key0
    rcases mul_eq_zero.1 this with h0 | h0
    · exact absurd (sub_eq_zero.1 h0).symm hc
    · exact sub_eq_zero.1 h0
  · intro ha
    rw [ha]; exact key0

/-- C115: a hash function for which both parts of the statement happen: equal points for the messages `[]` and `[0]`, and different hash values of the verification equation. -/
example (key : Bytes) (hk : key.length = 96) (hs : leNat (key.take 32) < 2 ^ 255) :
    ∃ (H : Hashes) (sig sig' pk : Bytes), H.Ok ∧ Sign H key [] = .ok sig ∧ Sign H key [0] = .ok sig' ∧ MakePublicKey key = .ok pk ∧ sig.take 32 = sig'.take 32 ∧
      leNat (H.sha512 (sig.take 32 ++ pk ++ [])) % L ≠ leNat (H.sha512 (sig.take 32 ++ pk ++ [0])) % L := by
  let H : Hashes := ⟨fun x => if x.length < 64 then leBytes 64 1 else leBytes 64 x.length, zeroHashes.sha256, zeroHashes.hmac512, zeroHashes.pbkdf2⟩
  have hH : H.Ok := ⟨fun m => by show (if m.length < 64 then leBytes 64 1 else leBytes 64 m.length).length = 64; split <;> exact leBytes_length _ _,
    fun _ => by simp [H, zeroHashes], fun _ _ => by simp [H, zeroHashes], fun _ _ => by simp [H, zeroHashes]⟩
  obtain ⟨pk, -, p1, -, -, -, p2⟩ := C36_public_key key hk hs
  obtain ⟨sig, _, a1, a2, av⟩ := C37_signature_valid H hH key hk hs []
  obtain ⟨sig', _, b1, b2, bv⟩ := C37_signature_valid H hH key hk hs [0]
  refine ⟨H, sig, sig', pk, hH, a1, b1, p1, ?_, ?_⟩
  · rw [C115_same_point H hH key key hk hk hs hs [] [0] sig sig' a1 b1]
    have h1 : ((key.drop 32).take 32 ++ []).length < 64 := by simp
    have h2 : ((key.drop 32).take 32 ++ [0]).length < 64 := by simp; omega
    show leNat (if _ then _ else _) % L = leNat (if _ then _ else _) % L
    rw [if_pos h1, if_pos h2]
  · have h1 : (sig.take 32 ++ pk ++ []).length = 64 := by simp [av.size, p2.size]
    have h2 : (sig.take 32 ++ pk ++ [0]).length = 65 := by simp [av.size, p2.size]
    show leNat (if _ then _ else _) % L ≠ leNat (if _ then _ else _) % L
    rw [if_neg (by omega), if_neg (by omega), h1, h2]
    decide +kernel

end Cardano.Props
