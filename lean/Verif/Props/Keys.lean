import Verif.Bip32.Lemmas
import Verif.Bip32.HashTypes
import Verif.Address.Lemmas
import Verif.Hash.Blake2b
/-!
# Properties C32, C33, C34, C43: root keys, child keys, hash constructors
-/
set_option autoImplicit false

namespace Cardano.Props
open Bip32 Addr

/-! ### C32 -/

/-- The scalar half of `key` is clamped: three low bits clear, 255 and 253 clear, 254 set. -/
structure Clamped (key : Bytes) : Prop where
  size : key.length = 96
  low : 8 ∣ leNat (key.take 32)
  hi : 2 ^ 254 ≤ leNat (key.take 32)
  top : leNat (key.take 32) < 2 ^ 254 + 2 ^ 253

/-- The number with the low three bits cleared, and bits 253..255 replaced by 0,1,0. -/
def clampNat (n : Nat) : Nat := n % 2 ^ 253 / 8 * 8 + 2 ^ 254

theorem clampNat_spec (n : Nat) : 8 ∣ clampNat n ∧ 2 ^ 254 ≤ clampNat n ∧ clampNat n < 2 ^ 254 + 2 ^ 253 := by
  unfold clampNat
  refine ⟨?_, by omega, ?_⟩
  · exact Nat.dvd_add (Nat.dvd_mul_left _ _) ⟨2 ^ 251, by decide⟩
  · omega

theorem split32 (b : Bytes) (h : 32 ≤ b.length) : ∃ x mid y rest, b = x :: (mid ++ y :: rest) ∧ mid.length = 30 := by
  match b, h with
  | x :: t, h =>
    have ht : 31 ≤ t.length := by simpa using h
    refine ⟨x, t.take 30, t[30], t.drop 31, ?_, by simp; omega⟩
    rw [List.getElem_cons_drop, List.take_append_drop]

theorem modify_append (a b : Bytes) (y : UInt8) (f : UInt8 → UInt8) : (a ++ y :: b).modify a.length f = a ++ f y :: b := by
  induction a with
  | nil => rfl
  | cons x a ih => simpa using ih

/-- Common computation of both clampings. -/
theorem clamp_gen (b : Bytes) (h : 32 ≤ b.length) (f g : UInt8 → UInt8)
    (hf : ∀ x, (f x).toNat = x.toNat / 8 * 8) (hg : ∀ x, (g x).toNat = x.toNat % 32 + 64) :
    let c := modifyAt (modifyAt b 0 f) 31 g
    c.length = b.length ∧ c.drop 32 = b.drop 32 ∧ leNat (c.take 32) = clampNat (leNat (b.take 32)) := by
  obtain ⟨x, mid, y, rest, rfl, hm⟩ := split32 b h
  have e1 : modifyAt (modifyAt (x :: (mid ++ y :: rest)) 0 f) 31 g = f x :: (mid ++ g y :: rest) := by
    simp only [modifyAt, List.modify_zero_cons, List.modify_succ_cons]
    rw [← hm, modify_append]
  have t1 : ∀ (x y : UInt8), (x :: (mid ++ y :: rest)).take 32 = x :: (mid ++ [y]) := by
    intro x y; simp [List.take_append, hm, List.take_of_length_le]
  have d1 : ∀ (x y : UInt8), (x :: (mid ++ y :: rest)).drop 32 = rest := by
    intro x y; simp [List.drop_append, hm]
  simp only [e1, d1, t1]
  refine ⟨by simp, trivial, ?_⟩
  simp only [leNat, leNat_append, hf, hg, hm, Nat.mul_zero, Nat.add_zero]
  have hx := UInt8.toNat_lt x
  have hy := UInt8.toNat_lt y
  have hmid := leNat_lt mid
  rw [hm] at hmid
  unfold clampNat
  generalize leNat mid = M at *
  generalize x.toNat = X at *
  generalize y.toNat = Y at *
  omega

/-- **C32.** `NewXPrv` accepts exactly 32-byte seeds. The result is the SHA-512 of the seed with the first half clamped,
followed by the SHA-256 of the byte 1 and the seed. -/
theorem C32_root_key (H : Hashes) (hH : H.Ok) (seed : Bytes) :
    (seed.length ≠ 32 → ∃ m, NewXPrv H seed = .err m) ∧
    (seed.length = 32 → ∃ key, NewXPrv H seed = .ok key ∧ Clamped key ∧
      leNat (key.take 32) = clampNat (leNat ((H.sha512 seed).take 32)) ∧
      (key.drop 32).take 32 = (H.sha512 seed).drop 32 ∧ key.drop 64 = H.sha256 (0x01 :: seed)) := by
  unfold NewXPrv
  constructor
  · intro h; rw [if_pos h]; exact ⟨_, rfl⟩
  · intro h
    rw [if_neg (by simp [h])]
    refine ⟨_, rfl, ?_⟩
    have e : modifyAt (modifyAt (modifyAt (H.sha512 seed) 0 (· &&& 0xf8)) 31 (· &&& 0x5f)) 31 (· ||| 0x40) =
        modifyAt (modifyAt (H.sha512 seed) 0 (· &&& 0xf8)) 31 (fun x => (x &&& 0x5f) ||| 0x40) := by
      simp [modifyAt, List.modify_modify_eq]; rfl
    simp only [e]
    obtain ⟨h1, h2, h3⟩ := clamp_gen (H.sha512 seed) (by rw [hH.sha512]; decide) (· &&& 0xf8) (fun x => (x &&& 0x5f) ||| 0x40)
      (forall_byte (by decide +kernel)) (forall_byte (by decide +kernel))
    rw [hH.sha512] at h1
    generalize modifyAt (modifyAt (H.sha512 seed) 0 (· &&& 0xf8)) 31 (fun x => (x &&& 0x5f) ||| 0x40) = k at *
    have t32 : (k ++ H.sha256 (0x01 :: seed)).take 32 = k.take 32 := by rw [List.take_append_of_le_length (by omega)]
    have hc := clampNat_spec (leNat ((H.sha512 seed).take 32))
    refine ⟨⟨by simp [h1, hH.sha256], ?_, ?_, ?_⟩, ?_, ?_, ?_⟩
    · rw [t32, h3]; exact hc.1
    · rw [t32, h3]; exact hc.2.1
    · rw [t32, h3]; exact hc.2.2
    · rw [t32, h3]
    · rw [List.drop_append_of_le_length (by omega), List.take_append_of_le_length (by simp [h1]), h2,
        List.take_of_length_le (by simp [hH.sha512])]
    · rw [List.drop_append, h1]; simp [h1]

/-- **C32.** `FromBip39Entropy`: the 96 bytes of the key derivation function with the first half clamped. -/
theorem C32_bip39_root_key (H : Hashes) (hH : H.Ok) (entropy password : Bytes) :
    ∃ key, FromBip39Entropy H entropy password = .ok key ∧ Clamped key ∧
      leNat (key.take 32) = clampNat (leNat ((H.pbkdf2 password entropy).take 32)) ∧
      key.drop 32 = (H.pbkdf2 password entropy).drop 32 := by
  unfold FromBip39Entropy NormalizeBytesForce3rd
  rw [if_neg (by rw [hH.pbkdf2]; decide)]
  refine ⟨_, rfl, ?_⟩
  have e : modifyAt (modifyAt (modifyAt (H.pbkdf2 password entropy) 0 (· &&& 0xf8)) 31 (· &&& 0x1f)) 31 (· ||| 0x40) =
      modifyAt (modifyAt (H.pbkdf2 password entropy) 0 (· &&& 0xf8)) 31 (fun x => (x &&& 0x1f) ||| 0x40) := by
    simp [modifyAt, List.modify_modify_eq]; rfl
  simp only [e]
  obtain ⟨h1, h2, h3⟩ := clamp_gen (H.pbkdf2 password entropy) (by rw [hH.pbkdf2]; decide) (· &&& 0xf8) (fun x => (x &&& 0x1f) ||| 0x40)
    (forall_byte (by decide +kernel)) (forall_byte (by decide +kernel))
  rw [hH.pbkdf2] at h1
  have hc := clampNat_spec (leNat ((H.pbkdf2 password entropy).take 32))
  refine ⟨⟨h1, ?_, ?_, ?_⟩, h3, h2⟩
  · rw [h3]; exact hc.1
  · rw [h3]; exact hc.2.1
  · rw [h3]; exact hc.2.2

/-! ### C33 -/

/-- What the two MACs are computed over. -/
def macInput (tagHard tagSoft : UInt8) (pub : Bytes → Bytes) (key : Bytes) (i : UInt32) : Bytes :=
  (if i.toNat < 2 ^ 31 then tagSoft :: pub (key.take 64) else tagHard :: key.take 64) ++ leBytes 4 i.toNat

/-- **C33.** `Derive` on a 96-byte key never fails, and computes the child by the arithmetic of BIP32-Ed25519. -/
theorem C33_derive (H : Hashes) (hH : H.Ok) (pub : Bytes → Bytes) (key : Bytes) (hk : key.length = 96) (i : UInt32) :
    ∃ child, Derive H pub key i = .ok child ∧ child.length = 96 ∧
      leNat (child.take 32) =
        (leNat (key.take 32) + 8 * leNat ((H.hmac512 (key.drop 64) (macInput 0 2 pub key i)).take 28)) % 2 ^ 256 ∧
      leNat ((child.drop 32).take 32) =
        (leNat ((key.drop 32).take 32) + leNat ((H.hmac512 (key.drop 64) (macInput 0 2 pub key i)).drop 32)) % 2 ^ 256 ∧
      child.drop 64 = (H.hmac512 (key.drop 64) (macInput 1 3 pub key i)).drop 32 := by
  unfold Derive
  rw [if_neg (by omega)]
  have hin : ∀ a b : UInt8, (if isHardened i then a :: (key.take 64 ++ le32 i) else b :: (pub (key.take 64) ++ le32 i)) = macInput a b pub key i := by
    intro a b
    unfold macInput
    rw [← le32_eq]
    have hi : isHardened i = decide (2 ^ 31 ≤ i.toNat) := by
      unfold isHardened
      have : (i ≥ 0x80000000) ↔ 2 ^ 31 ≤ i.toNat := by
        rw [ge_iff_le, UInt32.le_iff_toNat_le]; exact Iff.rfl
      simp [this]
    rw [hi]
    by_cases c : i.toNat < 2 ^ 31
    · rw [if_neg (by simpa using c), if_pos c]; rfl
    · rw [if_pos (by simpa using c), if_neg c]; rfl
  simp only [hin]
  refine ⟨_, rfl, ?_⟩
  have hz : (H.hmac512 (key.drop 64) (macInput 0 2 pub key i)).length = 64 := hH.hmac512 _ _
  have hi2 : (H.hmac512 (key.drop 64) (macInput 1 3 pub key i)).length = 64 := hH.hmac512 _ _
  obtain ⟨l1, l2⟩ := add28mul8_spec (key.take 32) ((H.hmac512 (key.drop 64) (macInput 0 2 pub key i)).take 32) (by simp [hk]) (by simp [hz])
  obtain ⟨r1, r2⟩ := add256bits_spec ((key.drop 32).take 32) (((H.hmac512 (key.drop 64) (macInput 0 2 pub key i)).drop 32).take 32)
    (by simp [hk]) (by simp [hz])
  rw [List.take_take, show min 28 32 = 28 from rfl] at l2
  have hzd : ((H.hmac512 (key.drop 64) (macInput 0 2 pub key i)).drop 32).take 32 = (H.hmac512 (key.drop 64) (macInput 0 2 pub key i)).drop 32 :=
    List.take_of_length_le (by simp [hz])
  rw [hzd] at r1 r2 ⊢
  generalize add28mul8 (key.take 32) ((H.hmac512 (key.drop 64) (macInput 0 2 pub key i)).take 32) = L at *
  generalize add256bits ((key.drop 32).take 32) ((H.hmac512 (key.drop 64) (macInput 0 2 pub key i)).drop 32) = R at *
  refine ⟨by simp [l1, r1, hi2], ?_, ?_, ?_⟩
  · rw [List.append_assoc, List.take_append_of_le_length (by omega), List.take_of_length_le (by omega), l2]
  · rw [List.append_assoc, List.drop_append, l1, List.drop_of_length_le (by omega), List.nil_append, Nat.sub_self, List.drop_zero,
      List.take_append_of_le_length (by omega), List.take_of_length_le (by omega), r2]
  · rw [List.drop_append, List.drop_of_length_le (by simp [l1, r1])]; simp [l1, r1]

/-! ### C34 -/

/-- **C34.** Along every derivation path of fewer than `2^26` steps from a clamped root, all derivations succeed and the scalar is a
multiple of 8, at least `2^254` and below `2^255`; so no addition of a scalar has wrapped around. -/
theorem C34_path_scalars (H : Hashes) (hH : H.Ok) (pub : Bytes → Bytes) (key : Bytes) (hk : Clamped key) (path : List UInt32)
    (hp : path.length < 2 ^ 26) :
    ∃ child, derivePath H pub key path = .ok child ∧ child.length = 96 ∧ 8 ∣ leNat (child.take 32) ∧
      2 ^ 254 ≤ leNat (child.take 32) ∧ leNat (child.take 32) < 2 ^ 255 := by
  suffices gen : ∀ (path : List UInt32) (key : Bytes) (n : Nat), key.length = 96 → 8 ∣ leNat (key.take 32) → 2 ^ 254 ≤ leNat (key.take 32) →
      leNat (key.take 32) < 2 ^ 254 + 2 ^ 253 + n * 2 ^ 227 → n + path.length < 2 ^ 26 →
      ∃ child, derivePath H pub key path = .ok child ∧ child.length = 96 ∧ 8 ∣ leNat (child.take 32) ∧
        2 ^ 254 ≤ leNat (child.take 32) ∧ leNat (child.take 32) < 2 ^ 255 by
    exact gen path key 0 hk.size hk.low hk.hi (by have := hk.top; omega) (by omega)
  intro path
  induction path with
  | nil =>
    intro key n h1 h2 h3 h4 h5
    refine ⟨key, rfl, h1, h2, h3, ?_⟩
    simp only [List.length_nil] at h5
    omega
  | cons i path ih =>
    intro key n h1 h2 h3 h4 h5
    obtain ⟨child, e, hl, hs, _, _⟩ := C33_derive H hH pub key h1 i
    have hz := leNat_lt ((H.hmac512 (key.drop 64) (macInput 0 2 pub key i)).take 28)
    rw [show ((H.hmac512 (key.drop 64) (macInput 0 2 pub key i)).take 28).length = 28 by simp [hH.hmac512]] at hz
    simp only [List.length_cons] at h5
    generalize leNat ((H.hmac512 (key.drop 64) (macInput 0 2 pub key i)).take 28) = Z at *
    rw [Nat.mod_eq_of_lt (by omega)] at hs
    have := ih child (n + 1) hl (by rw [hs]; exact Nat.dvd_add h2 ⟨Z, rfl⟩) (by omega) (by omega) (by omega)
    obtain ⟨c, hc, hrest⟩ := this
    refine ⟨c, ?_, hrest⟩
    unfold derivePath
    rw [e]; exact hc

/-- The bound on the path length is not an artefact: without it the scalar can reach `2^255`. A clamped key and MAC output with maximal
value give, after `2^26 + 1` steps, at least `2^255`: shown here by the numbers. -/
example : (2 ^ 254 + 2 ^ 253 - 8) + (2 ^ 26 + 1) * (8 * (2 ^ 224 - 1)) ≥ 2 ^ 255 := by decide

/-- Hash functions with the right sizes exist, and a clamped key. -/
def zeroHashes : Hashes := ⟨fun _ => List.replicate 64 0, fun _ => List.replicate 32 0, fun _ _ => List.replicate 64 0, fun _ _ => List.replicate 96 0⟩

theorem zeroHashes_ok : zeroHashes.Ok := ⟨fun _ => by simp [zeroHashes], fun _ => by simp [zeroHashes], fun _ _ => by simp [zeroHashes], fun _ _ => by simp [zeroHashes]⟩

example : ∃ key, Clamped key := by
  obtain ⟨key, _, h, _⟩ := C32_bip39_root_key zeroHashes zeroHashes_ok [] []
  exact ⟨key, h⟩

/-! ### C43 -/

theorem fromBytes_spec (n : Nat) (b : Bytes) :
    (b.length = n → HashTypes.fromBytes n b = .ok b) ∧ (b.length ≠ n → ∃ m, HashTypes.fromBytes n b = .err m) := by
  unfold HashTypes.fromBytes HashTypes.copyInto
  constructor
  · intro h; rw [if_neg (by simp [h])]; simp [h, List.take_of_length_le]
  · intro h; rw [if_pos h]; exact ⟨_, rfl⟩

/-- **C43.** Each constructor succeeds exactly on inputs of its documented length, and then holds exactly the input. -/
theorem C43_hash_constructors (b : Bytes) :
    (∀ f ∈ [HashTypes.Ed25519KeyHashFromBytes, HashTypes.ScriptHashFromBytes, HashTypes.GenesisDelegateHashFromBytes, HashTypes.GenesisHashFromBytes],
      (b.length = 28 → f b = .ok b) ∧ (b.length ≠ 28 → ∃ m, f b = .err m)) ∧
    (∀ f ∈ [HashTypes.TransactionHashFromBytes, HashTypes.MetadataHashFromBytes, HashTypes.VRFKeyHashFromBytes, HashTypes.BlockHashFromBytes,
        HashTypes.VRFVKeyFromBytes, HashTypes.KESVKeyFromBytes],
      (b.length = 32 → f b = .ok b) ∧ (b.length ≠ 32 → ∃ m, f b = .err m)) := by
  constructor
  · intro f hf
    simp only [List.mem_cons, List.not_mem_nil, or_false] at hf
    rcases hf with rfl | rfl | rfl | rfl <;> exact fromBytes_spec 28 b
  · intro f hf
    simp only [List.mem_cons, List.not_mem_nil, or_false] at hf
    rcases hf with rfl | rfl | rfl | rfl | rfl | rfl <;> exact fromBytes_spec 32 b

/-- **C43** (hash functions). `Blake2b224` and `Blake2b256` give the digest of the library, complete and with nothing added, and the constructors accept it. -/
theorem C43_hash_functions (sum224 sum256 : Bytes → Bytes) (h224 : ∀ m, (sum224 m).length = 28) (h256 : ∀ m, (sum256 m).length = 32) (data : Bytes) :
    HashTypes.Blake2b224 sum224 data = sum224 data ∧ HashTypes.Blake2b256 sum256 data = sum256 data ∧
    HashTypes.Ed25519KeyHashFromBytes (HashTypes.Blake2b224 sum224 data) = .ok (sum224 data) ∧
    HashTypes.TransactionHashFromBytes (HashTypes.Blake2b256 sum256 data) = .ok (sum256 data) := by
  have e1 : HashTypes.Blake2b224 sum224 data = sum224 data := by
    simp [HashTypes.Blake2b224, HashTypes.copyInto, h224, List.take_of_length_le]
  have e2 : HashTypes.Blake2b256 sum256 data = sum256 data := by
    simp [HashTypes.Blake2b256, HashTypes.copyInto, h256, List.take_of_length_le]
  rw [e1, e2]
  exact ⟨rfl, rfl, (fromBytes_spec 28 _).1 (h224 data), (fromBytes_spec 32 _).1 (h256 data)⟩

/-- The hash function of RFC 7693 meets the hypotheses. -/
example (data : Bytes) : HashTypes.Blake2b256 (Hash.Blake2b.hash 32) data = Hash.Blake2b.hash 32 data :=
  (C43_hash_functions (Hash.Blake2b.hash 28) (Hash.Blake2b.hash 32) (Hash.Blake2b.hash_length 28 (by decide)) (Hash.Blake2b.hash_length 32 (by decide)) data).2.1

end Cardano.Props
