import Verif.Props.Group
import Verif.Props.Keys
import Verif.Props.Builder
import Verif.Bip32.Sign
import Verif.Ed25519.TopDigit
/-!
# Properties C35, C36, C37, C60, C61: public keys, derivation of public keys, signatures
-/
set_option autoImplicit false

namespace Cardano.Props
open Ed Bip32

attribute [local irreducible] GeScalarMultBase Ext.ToBytes ScReduce ScMulAdd B

/-! ### C36 -/

theorem makePublicKey_enc (key : Bytes) (hk : 32 ≤ key.length) (hs : leNat (key.take 32) < 2 ^ 255) :
    Encodes (makePublicKey key) (leNat (key.take 32) • B) := by
  rw [encodes_iff]
  unfold makePublicKey
  exact Ext.toBytes_eq (GeScalarMultBase_rep (by simp; omega) hs)

theorem makePublicKey_take (key : Bytes) : makePublicKey (key.take 64) = makePublicKey key := by
  unfold makePublicKey
  rw [List.take_take, show min 32 64 = 32 from rfl]

/-- **C36.** `MakePublicKey(key)` and `key.Public().PublicKey()` are the RFC 8032 encoding of `k B`, where `k` is the scalar of the
key. -/
theorem C36_public_key (key : Bytes) (hk : key.length = 96) (hs : leNat (key.take 32) < 2 ^ 255) :
    ∃ pk xpub, MakePublicKey key = .ok pk ∧ Public makePublicKey key = .ok xpub ∧ PublicKey xpub = .ok pk ∧
      ChainCode xpub = .ok (key.drop 64) ∧ Encodes pk (leNat (key.take 32) • B) := by
  have he := makePublicKey_enc key (by omega) hs
  refine ⟨makePublicKey key, makePublicKey key ++ key.drop 64, ?_, ?_, ?_, ?_, he⟩
  · unfold MakePublicKey; rw [if_neg (by omega)]
  · unfold Public; rw [if_neg (by omega), makePublicKey_take]
  · unfold PublicKey
    rw [if_neg (by simp [he.size]), List.take_append_of_le_length (by rw [he.size]), List.take_of_length_le (by rw [he.size])]
  · unfold ChainCode
    rw [if_neg (by simp [he.size]), List.drop_append, he.size, List.drop_of_length_le (by rw [he.size])]; rfl

/-- **C36, chain codes.** `ChainCode` of a key is what follows its 64 secret bytes, and the extended public key has the same chain code. -/
theorem C36_chain_code (secret chain : Bytes) (hk : secret.length = 64) (hs : leNat (secret.take 32) < 2 ^ 255) :
    XPrvChainCode (secret ++ chain) = .ok chain ∧ ∃ xpub, Public makePublicKey (secret ++ chain) = .ok xpub ∧ ChainCode xpub = .ok chain := by
  have hm : (makePublicKey secret).length = 32 := (makePublicKey_enc secret (by omega) hs).size
  have hl : ¬ (secret ++ chain).length < 64 := by rw [List.length_append]; omega
  have hd : (secret ++ chain).drop 64 = chain := by rw [← hk, List.drop_left]
  have ht : (secret ++ chain).take 64 = secret := by rw [← hk, List.take_left]
  refine ⟨?_, makePublicKey secret ++ chain, ?_, ?_⟩
  · unfold XPrvChainCode; rw [if_neg hl, hd]
  · unfold Public; rw [if_neg hl, hd, ht]
  · unfold ChainCode
    rw [if_neg (by rw [List.length_append]; omega), ← hm, List.drop_left]

/-- All keys along a derivation path from a clamped root meet the hypotheses. -/
example (H : Hashes) (hH : H.Ok) (root : Bytes) (hr : Clamped root) (path : List UInt32) (hp : path.length < 2 ^ 26) :
    ∃ key pk, derivePath H makePublicKey root path = .ok key ∧ MakePublicKey key = .ok pk ∧ Encodes pk (leNat (key.take 32) • B) := by
  obtain ⟨key, h1, h2, _, _, h3⟩ := C34_path_scalars H hH makePublicKey root hr path hp
  obtain ⟨pk, _, h4, _, _, _, h5⟩ := C36_public_key key h2 h3
  exact ⟨key, pk, h1, h4, h5⟩

/-- Which scalars work: the public key is right exactly up to `2^255 + 7 (16^63 - 1) / 15`. Keys obtained from the constructors and `Derive`
are below (C34), but any 96 bytes can be converted to a key. -/
theorem C36_range (key : Bytes) (hk : key.length = 96) :
    Encodes (makePublicKey key) (leNat (key.take 32) • B) ↔ leNat (key.take 32) ≤ 2 ^ 255 + 7 * (16 ^ 63 - 1) / 15 := by
  obtain ⟨r, top, h1, h2, h3, h4, h5, h6⟩ := GeScalarMultBase_all (a := key.take 32) (by simp [hk])
  have he : Encodes (makePublicKey key) ((r + 16 ^ 63 * clip top) • B) := by
    rw [encodes_iff]; unfold makePublicKey; exact Ext.toBytes_eq h6
  have hB : leNat (key.take 32) • B = (leNat (key.take 32) : Int) • B := (natCast_zsmul _ _).symm
  constructor
  · intro h
    by_contra hgt
    have htop : 9 ≤ top := by norm_num at *; omega
    have e := (C51_encoding_unique _).2 _ _ he h
    rw [clip, if_neg (by omega), mul_zero, add_zero, hB, h1, add_zsmul] at e
    have z : (16 ^ 63 * top) • B = 0 := left_eq_add.1 e
    have ht : (top.toNat : Int) = top := by omega
    have z' : (16 ^ 63 * top.toNat) • B = 0 • B := by
      rw [zero_nsmul, ← z, ← natCast_zsmul]; push_cast; rw [ht]
    rw [C42_order.2] at z'
    have hn : 9 ≤ top.toNat ∧ top.toNat ≤ 16 := by omega
    generalize top.toNat = n at *
    have : ∀ n, 9 ≤ n → n ≤ 16 → 16 ^ 63 * n % L ≠ 0 % L := by
      intro n a b
      interval_cases n <;> decide +kernel
    exact this n hn.1 hn.2 z'
  · intro h
    have htop : top ≤ 8 := by norm_num at *; omega
    rw [clip, if_pos htop, ← h1] at he
    rw [hB]; exact he

/-- The largest scalar gives the opposite of the base point. -/
example : ¬ Encodes (makePublicKey (List.replicate 96 0xff)) (leNat ((List.replicate 96 (0xff : UInt8)).take 32) • B) := by
  rw [C36_range _ (by simp)]; decide +kernel

/-! ### C61: distinct scalars, distinct public keys -/

/-- **C61.** Two keys whose scalars are multiples of 8 below `2^255` have the same public key only if their scalars are equal. -/
theorem C61_public_key_injective (key key' : Bytes) (hk : key.length = 96) (hk' : key'.length = 96) (hs : leNat (key.take 32) < 2 ^ 255)
    (hs' : leNat (key'.take 32) < 2 ^ 255) (h8 : 8 ∣ leNat (key.take 32)) (h8' : 8 ∣ leNat (key'.take 32))
    (h : MakePublicKey key = MakePublicKey key') : key.take 32 = key'.take 32 := by
  obtain ⟨pk, _, h1, _, _, _, h2⟩ := C36_public_key key hk hs
  obtain ⟨pk', _, h1', _, _, _, h2'⟩ := C36_public_key key' hk' hs'
  rw [h1, h1'] at h
  injection h with h
  subst h
  have e := (C51_encoding_unique _).2 _ _ h2 h2'
  rw [C42_order.2] at e
  refine leNat_inj (by simp [hk, hk']) ?_
  generalize leNat (key.take 32) = a at *
  generalize leNat (key'.take 32) = b at *
  obtain ⟨a, rfl⟩ := h8
  obtain ⟨b, rfl⟩ := h8'
  have hc : 8 * a ≡ 8 * b [MOD L] := e
  have hg : Nat.gcd L 8 = 1 := by decide +kernel
  have := Nat.ModEq.cancel_left_of_coprime hg hc
  have ha : a < L := by
    have : (2 : Nat) ^ 255 ≤ 8 * L := by decide +kernel
    omega
  have hb : b < L := by
    have : (2 : Nat) ^ 255 ≤ 8 * L := by decide +kernel
    omega
  rw [this.eq_of_lt_of_lt ha hb]

/-- Without divisibility by 8 this fails: `1` and `L + 1` have the same public key. -/
example : MakePublicKey (leBytes 96 1) = MakePublicKey (leBytes 96 (L + 1)) := by
  have e1 : leNat ((leBytes 96 1).take 32) = 1 := by decide +kernel
  have e2 : leNat ((leBytes 96 (L + 1)).take 32) = L + 1 := by decide +kernel
  obtain ⟨pk, _, h1, _, _, _, h2⟩ := C36_public_key (leBytes 96 1) (leBytes_length _ _) (by rw [e1]; decide +kernel)
  obtain ⟨pk', _, h1', _, _, _, h2'⟩ := C36_public_key (leBytes 96 (L + 1)) (leBytes_length _ _) (by rw [e2]; decide +kernel)
  have : (1 : Nat) • B = (L + 1) • B := (C42_order.2 _ _).2 (by decide +kernel)
  rw [e1, this] at h2
  rw [e2] at h2'
  rw [h1, h1']
  rw [encodes_iff] at h2 h2'
  rw [h2, h2']

/-- The hypotheses are met by different keys. -/
example : ∃ key key' : Bytes, key.length = 96 ∧ key'.length = 96 ∧ leNat (key.take 32) < 2 ^ 255 ∧ leNat (key'.take 32) < 2 ^ 255 ∧
    8 ∣ leNat (key.take 32) ∧ 8 ∣ leNat (key'.take 32) ∧ key.take 32 ≠ key'.take 32 :=
  ⟨leBytes 96 (2 ^ 254), leBytes 96 (2 ^ 254 + 8), by decide +kernel, by decide +kernel, by decide +kernel, by decide +kernel,
    by decide +kernel, by decide +kernel, by decide +kernel⟩

/-! ### C35 -/

/-- What a watch-only wallet can compute: the child with index `i` of an extended public key (32 bytes of public key and a chain code).
`Z` is the MAC, keyed with the chain code, of the byte 2, the public key and the index; the child's point is `A + 8 Z_left B`, its chain
code the right half of the MAC of the byte 3, the public key and the index. -/
structure PublicChild (H : Hashes) (xpub : Bytes) (i : Nat) (child : Bytes) : Prop where
  size : child.length = 64
  point : ∃ A : Pt, Encodes (xpub.take 32) A ∧
    Encodes (child.take 32) (A + (8 * leNat ((H.hmac512 (xpub.drop 32) (2 :: (xpub.take 32 ++ leBytes 4 i))).take 28)) • B)
  chain : child.drop 32 = (H.hmac512 (xpub.drop 32) (3 :: (xpub.take 32 ++ leBytes 4 i))).drop 32

/-- `PublicChild` determines the child. -/
theorem PublicChild.unique {H : Hashes} {xpub : Bytes} {i : Nat} {c c' : Bytes} (h : PublicChild H xpub i c) (h' : PublicChild H xpub i c') :
    c = c' := by
  obtain ⟨A, h1, h2⟩ := h.point
  obtain ⟨A', h1', h2'⟩ := h'.point
  obtain rfl := (C51_encoding_unique A).2 _ _ h1 h1'
  rw [encodes_iff] at h2 h2'
  rw [← List.take_append_drop 32 c, ← List.take_append_drop 32 c', h2, h2', h.chain, h'.chain]

/-- **C35.** For a non-hardened index, the extended public key of the child is determined by the extended public key of the parent, by
the public derivation of BIP32-Ed25519; whatever the private key. -/
theorem C35_soft_derivation (H : Hashes) (hH : H.Ok) (key : Bytes) (hk : key.length = 96) (hs : leNat (key.take 32) < 2 ^ 255 - 2 ^ 227)
    (i : UInt32) (hi : i.toNat < 2 ^ 31) :
    ∃ child xpub xpub', Derive H makePublicKey key i = .ok child ∧ Public makePublicKey key = .ok xpub ∧
      Public makePublicKey child = .ok xpub' ∧ PublicChild H xpub i.toNat xpub' := by
  obtain ⟨child, hd, hl, hz, -, hc⟩ := C33_derive H hH makePublicKey key hk i
  have he := makePublicKey_enc key (by omega) (by omega)
  have hZ := leNat_lt ((H.hmac512 (key.drop 64) (macInput 0 2 makePublicKey key i)).take 28)
  rw [show ((H.hmac512 (key.drop 64) (macInput 0 2 makePublicKey key i)).take 28).length = 28 by simp [hH.hmac512]] at hZ
  have hin : ∀ a b : UInt8, macInput a b makePublicKey key i = b :: (makePublicKey key ++ leBytes 4 i.toNat) := by
    intro a b; unfold macInput; rw [if_pos hi, makePublicKey_take]; rfl
  simp only [hin] at hz hc hZ
  refine ⟨child, makePublicKey key ++ key.drop 64, makePublicKey child ++ child.drop 64, hd, ?_, ?_, ?_⟩
  · unfold Public; rw [if_neg (by omega), makePublicKey_take]
  · unfold Public; rw [if_neg (by omega), makePublicKey_take]
  have t1 : ∀ {p c : Bytes}, p.length = 32 → (p ++ c).take 32 = p ∧ (p ++ c).drop 32 = c := by
    intro p c hp; exact ⟨by rw [← hp]; simp, by rw [← hp]; simp⟩
  obtain ⟨a1, a2⟩ := t1 (c := key.drop 64) he.size
  have hbound : leNat (key.take 32) + 8 * leNat ((H.hmac512 (key.drop 64) (2 :: (makePublicKey key ++ leBytes 4 i.toNat))).take 28) < 2 ^ 255 := by
    generalize leNat ((H.hmac512 (key.drop 64) (2 :: (makePublicKey key ++ leBytes 4 i.toNat))).take 28) = Z at *
    norm_num at *; omega
  rw [Nat.mod_eq_of_lt (Nat.lt_trans hbound (by decide))] at hz
  have he' := makePublicKey_enc child (by omega) (by rw [hz]; exact hbound)
  obtain ⟨b1, b2⟩ := t1 (c := child.drop 64) he'.size
  refine ⟨by simp [he'.size, hl], ⟨leNat (key.take 32) • B, ?_, ?_⟩, ?_⟩
  · rw [a1]; exact he
  · rw [a1, a2, b1, ← add_nsmul, ← hz]; exact he'
  · rw [a1, a2, b2, hc]

/-- Chains of public children. -/
inductive PublicPath (H : Hashes) : Bytes → List UInt32 → Bytes → Prop
  | nil (x : Bytes) : PublicPath H x [] x
  | cons {x y z : Bytes} {i : UInt32} {path : List UInt32} (h : PublicChild H x i.toNat y) (t : PublicPath H y path z) :
      PublicPath H x (i :: path) z

theorem PublicPath.unique {H : Hashes} {x y y' : Bytes} {path : List UInt32} (h : PublicPath H x path y) (h' : PublicPath H x path y') :
    y = y' := by
  induction h with
  | nil x => cases h'; rfl
  | cons h t ih =>
    cases h' with
    | cons g t' =>
      obtain rfl := h.unique g
      exact ih t'

/-- **C35** (paths). From a clamped root: after any path, the public keys of all soft descendants of the key reached are those a
watch-only wallet computes from its extended public key. -/
theorem C35_soft_path (H : Hashes) (hH : H.Ok) (root : Bytes) (hr : Clamped root) (path soft : List UInt32) (hsoft : ∀ i ∈ soft, i.toNat < 2 ^ 31)
    (hp : path.length + soft.length < 2 ^ 26) :
    ∃ account xpub key xpub', derivePath H makePublicKey root path = .ok account ∧ Public makePublicKey account = .ok xpub ∧
      derivePath H makePublicKey root (path ++ soft) = .ok key ∧ Public makePublicKey key = .ok xpub' ∧ PublicPath H xpub soft xpub' := by
  have split : ∀ (p q : List UInt32) (k a : Bytes), derivePath H makePublicKey k p = .ok a →
      derivePath H makePublicKey k (p ++ q) = derivePath H makePublicKey a q := by
    intro p
    induction p with
    | nil => intro q k a h; injection h with h; subst h; rfl
    | cons i p ih =>
      intro q k a h
      rw [derivePath] at h
      rw [List.cons_append, derivePath]
      cases hd : Derive H makePublicKey k i with
      | ok c => rw [hd] at h; exact ih q c a h
      | err m => rw [hd] at h; cases h
      | panic => rw [hd] at h; cases h
  -- a bound on the scalar after every path
  have bound : ∀ (p : List UInt32) (k : Bytes) (n : Nat), k.length = 96 → leNat (k.take 32) < 2 ^ 254 + 2 ^ 253 + n * 2 ^ 227 →
      n + p.length < 2 ^ 26 → ∃ a, derivePath H makePublicKey k p = .ok a ∧ a.length = 96 ∧
        leNat (a.take 32) < 2 ^ 254 + 2 ^ 253 + (n + p.length) * 2 ^ 227 := by
    intro p
    induction p with
    | nil => intro k n h1 h2 _; exact ⟨k, rfl, h1, h2⟩
    | cons i p ih =>
      intro k n h1 h2 h3
      obtain ⟨child, e, hl, hs, _, _⟩ := C33_derive H hH makePublicKey k h1 i
      have hz := leNat_lt ((H.hmac512 (k.drop 64) (macInput 0 2 makePublicKey k i)).take 28)
      rw [show ((H.hmac512 (k.drop 64) (macInput 0 2 makePublicKey k i)).take 28).length = 28 by simp [hH.hmac512]] at hz
      simp only [List.length_cons] at h3
      generalize leNat ((H.hmac512 (k.drop 64) (macInput 0 2 makePublicKey k i)).take 28) = Z at *
      rw [Nat.mod_eq_of_lt (by omega)] at hs
      obtain ⟨a, ha, hal, hab⟩ := ih child (n + 1) hl (by omega) (by omega)
      refine ⟨a, ?_, hal, ?_⟩
      · rw [derivePath, e]; exact ha
      · simp only [List.length_cons]; rw [show n + (p.length + 1) = n + 1 + p.length by omega]; exact hab
  obtain ⟨account, h1, h2, h3⟩ := bound path root 0 hr.size (by have := hr.top; omega) (by omega)
  simp only [Nat.zero_add] at h3
  -- induction over the soft part
  have main : ∀ (soft : List UInt32) (k : Bytes) (n : Nat), (∀ i ∈ soft, i.toNat < 2 ^ 31) → k.length = 96 →
      leNat (k.take 32) < 2 ^ 254 + 2 ^ 253 + n * 2 ^ 227 → n + soft.length < 2 ^ 26 →
      ∃ xpub key xpub', Public makePublicKey k = .ok xpub ∧ derivePath H makePublicKey k soft = .ok key ∧
        Public makePublicKey key = .ok xpub' ∧ PublicPath H xpub soft xpub' := by
    intro soft
    induction soft with
    | nil =>
      intro k n _ hk _ _
      have : Public makePublicKey k = .ok (makePublicKey (k.take 64) ++ k.drop 64) := by unfold Public; rw [if_neg (by omega)]
      exact ⟨_, k, _, this, rfl, this, .nil _⟩
    | cons i soft ih =>
      intro k n hso hk hb hn
      simp only [List.length_cons] at hn
      obtain ⟨child, x, x', d1, d2, d3, d4⟩ := C35_soft_derivation H hH k hk (by omega) i (hso i (List.mem_cons_self ..))
      obtain ⟨a, ha, hal, hab⟩ := bound [i] k n hk hb (by simp; omega)
      have : a = child := by
        rw [derivePath, d1] at ha
        injection ha with ha; exact ha.symm
      subst this
      obtain ⟨y, key, z, e1, e2, e3, e4⟩ := ih a (n + 1) (fun j hj => hso j (List.mem_cons_of_mem _ hj)) hal hab (by omega)
      rw [d3] at e1
      injection e1 with e1
      subst e1
      exact ⟨x, key, z, d2, by rw [derivePath, d1]; exact e2, e3, .cons d4 e4⟩
  obtain ⟨xpub, key, xpub', m1, m2, m3, m4⟩ := main soft account path.length hsoft h2 h3 (by omega)
  exact ⟨account, xpub, key, xpub', h1, m1, by rw [split _ _ _ _ h1]; exact m2, m3, m4⟩

/-- An account path as in CIP-1852 followed by a soft role and index. -/
example : ∃ account xpub key xpub', derivePath zeroHashes makePublicKey (leBytes 96 (2 ^ 254)) [0x80000000 + 1852, 0x80000000 + 1815, 0x80000000] = .ok account ∧
    Public makePublicKey account = .ok xpub ∧
    derivePath zeroHashes makePublicKey (leBytes 96 (2 ^ 254)) ([0x80000000 + 1852, 0x80000000 + 1815, 0x80000000] ++ [0, 7]) = .ok key ∧
    Public makePublicKey key = .ok xpub' ∧ PublicPath zeroHashes xpub [0, 7] xpub' :=
  C35_soft_path zeroHashes zeroHashes_ok _ ⟨by decide +kernel, by decide +kernel, by decide +kernel, by decide +kernel⟩ _ _ (by decide) (by decide)

/-! ### C37 -/

/-- The verification equation of RFC 8032, section 5.1.7 (in the stronger form without cofactor): the two halves `R` and `S` of the
signature and the public key are encodings, `S < L`, and `S B = R + SHA512(R || A || M) A`. -/
structure Valid (sha512 : Bytes → Bytes) (pk message sig : Bytes) : Prop where
  size : sig.length = 64
  small : leNat (sig.drop 32) < L
  equation : ∃ R A : Pt, Encodes (sig.take 32) R ∧ Encodes pk A ∧
    leNat (sig.drop 32) • B = R + leNat (sha512 (sig.take 32 ++ pk ++ message)) • A

/-- **C37.** `Sign` never fails on a 96-byte key, and its signatures are valid for the public key of the key. -/
theorem C37_signature_valid (H : Hashes) (hH : H.Ok) (key : Bytes) (hk : key.length = 96) (hs : leNat (key.take 32) < 2 ^ 255) (message : Bytes) :
    ∃ sig pk, Sign H key message = .ok sig ∧ MakePublicKey key = .ok pk ∧ Valid H.sha512 pk message sig := by
  obtain ⟨pk, -, hpk, -, -, -, hA⟩ := C36_public_key key hk hs
  have epk : makePublicKey key = pk := by
    unfold MakePublicKey at hpk
    rw [if_neg (by omega)] at hpk
    injection hpk
  unfold Sign
  rw [if_neg (by omega)]
  refine ⟨_, pk, rfl, hpk, ?_⟩
  simp only [epk]
  obtain ⟨n1, n2⟩ := C38_reduce (H.sha512 ((key.drop 32).take 32 ++ message)) (hH.sha512 _)
  generalize ScReduce (H.sha512 ((key.drop 32).take 32 ++ message)) = nonce at *
  have hn : leNat nonce < 2 ^ 255 := by
    rw [n2]
    exact Nat.lt_trans (Nat.mod_lt _ (by decide +kernel)) (by decide +kernel : L < 2 ^ 255)
  have hR : Encodes (GeScalarMultBase nonce).ToBytes (leNat nonce • B) := (encodes_iff _ _).2 (Ext.toBytes_eq (GeScalarMultBase_rep n1 hn))
  generalize (GeScalarMultBase nonce).ToBytes = r at *
  have t1 : (r ++ pk).take 32 = r := by rw [← hR.size]; simp
  rw [t1]
  obtain ⟨k1, k2⟩ := C38_reduce (H.sha512 (r ++ pk ++ message)) (hH.sha512 _)
  generalize hh : ScReduce (H.sha512 (r ++ pk ++ message)) = hram at *
  obtain ⟨s1, s2⟩ := C38_mulAdd hram (key.take 32) nonce k1 (by simp [hk]) n1
  generalize ScMulAdd hram (key.take 32) nonce = s at *
  have t2 : (r ++ s).take 32 = r := by rw [← hR.size]; simp
  have t3 : (r ++ s).drop 32 = s := by rw [← hR.size]; simp
  refine ⟨by simp [hR.size, s1], ?_, leNat nonce • B, leNat (key.take 32) • B, ?_, hA, ?_⟩
  · rw [t3, s2]; exact Nat.mod_lt _ (by decide +kernel)
  · rw [t2]; exact hR
  · rw [t3, t2, ← mul_nsmul', ← add_nsmul, C42_order.2, s2, k2, Nat.mod_mod]
    rw [Nat.add_comm, Nat.add_mod, Nat.mod_mul_mod, ← Nat.add_mod]

/-- **C37**, which signature it is: `R` is `r B` with the number `r` made from the second half of the key and the message (RFC 8032,
section 5.1.6, for extended keys), so that the secret part enters the nonce and different messages do not share one by construction; and no
other valid signature has the same `R`. -/
theorem C37_nonce (H : Hashes) (hH : H.Ok) (key : Bytes) (hk : key.length = 96) (hs : leNat (key.take 32) < 2 ^ 255) (message : Bytes) :
    ∃ sig pk, Sign H key message = .ok sig ∧ MakePublicKey key = .ok pk ∧
      Encodes (sig.take 32) (leNat (H.sha512 ((key.drop 32).take 32 ++ message)) • B) ∧
      ∀ sig', Valid H.sha512 pk message sig' → sig'.take 32 = sig.take 32 → sig' = sig := by
  obtain ⟨sig, pk, h1, h2, h3⟩ := C37_signature_valid H hH key hk hs message
  refine ⟨sig, pk, h1, h2, ?_, ?_⟩
  · unfold Sign at h1
    rw [if_neg (by omega)] at h1
    injection h1 with h1
    obtain ⟨n1, n2⟩ := C38_reduce (H.sha512 ((key.drop 32).take 32 ++ message)) (hH.sha512 _)
    have hn : leNat (ScReduce (H.sha512 ((key.drop 32).take 32 ++ message))) < 2 ^ 255 := by
      rw [n2]
      exact Nat.lt_trans (Nat.mod_lt _ (by decide +kernel)) (by decide +kernel : L < 2 ^ 255)
    have hR := (encodes_iff _ _).2 (Ext.toBytes_eq (GeScalarMultBase_rep n1 hn))
    have e : leNat (ScReduce (H.sha512 ((key.drop 32).take 32 ++ message))) • B = leNat (H.sha512 ((key.drop 32).take 32 ++ message)) • B := by
      rw [C42_order.2, n2, Nat.mod_mod]
    rw [e] at hR
    have t : sig.take 32 = (GeScalarMultBase (ScReduce (H.sha512 ((key.drop 32).take 32 ++ message)))).ToBytes := by
      rw [← h1]
      generalize (GeScalarMultBase (ScReduce (H.sha512 ((key.drop 32).take 32 ++ message)))).ToBytes = r at *
      have : (r ++ makePublicKey key).take 32 = r := by rw [← hR.size]; simp
      rw [this, List.take_append_of_le_length (by rw [hR.size]), ← hR.size, List.take_length]
    rw [t]; exact hR
  · intro sig' h4 ht
    obtain ⟨R, A, r1, a1, e1⟩ := h3.equation
    obtain ⟨R', A', r2, a2, e2⟩ := h4.equation
    rw [ht] at r2 e2
    obtain rfl := (C51_encoding_unique _).2 _ _ r1 r2
    obtain rfl := (C51_encoding_unique _).2 _ _ a1 a2
    have hd : leNat (sig'.drop 32) = leNat (sig.drop 32) := by
      have := e2.trans e1.symm
      rw [C42_order.2, Nat.mod_eq_of_lt h4.small, Nat.mod_eq_of_lt h3.small] at this
      exact this
    have hd : sig'.drop 32 = sig.drop 32 := leNat_inj (by simp [h3.size, h4.size]) hd
    rw [← List.take_append_drop 32 sig', ← List.take_append_drop 32 sig, ht, hd]

/-- Signing is deterministic in the model by construction; the hypotheses are met by every derived key. -/
example (H : Hashes) (hH : H.Ok) (root : Bytes) (hr : Clamped root) (path : List UInt32) (hp : path.length < 2 ^ 26) (message : Bytes) :
    ∃ key sig pk, derivePath H makePublicKey root path = .ok key ∧ Sign H key message = .ok sig ∧ MakePublicKey key = .ok pk ∧
      Valid H.sha512 pk message sig := by
  obtain ⟨key, h1, h2, _, _, h3⟩ := C34_path_scalars H hH makePublicKey root hr path hp
  obtain ⟨sig, pk, h4⟩ := C37_signature_valid H hH key h2 h3 message
  exact ⟨key, sig, pk, h1, h4⟩

/-- `Valid` is not trivially true: the zero signature is not valid for the base point as public key when the hash is 1. -/
example : ¬ Valid (fun _ => leBytes 64 1) (leBytes 32 (B.y.val + 2 ^ 255 * (B.x.val % 2))) [] (leBytes 64 1) := by
  rintro ⟨_, _, R, A, hR, hA, he⟩
  have h0 : leNat ((leBytes 64 1).drop 32) = 0 := by decide +kernel
  have h1 : leNat (leBytes 64 1) = 1 := by decide +kernel
  have hA' : Encodes (leBytes 32 (B.y.val + 2 ^ 255 * (B.x.val % 2))) B := (encodes_iff _ _).2 rfl
  have hR' : Encodes ((leBytes 64 1).take 32) 0 := by
    refine ⟨by simp [leBytes_length], ?_⟩
    rw [show leNat ((leBytes 64 1).take 32) = 1 by decide +kernel]
    show 1 = (1 : F).val + 2 ^ 255 * ((0 : F).val % 2)
    rw [ZMod.val_zero, show ((1 : F).val) = 1 from by rw [← Nat.cast_one, ZMod.val_natCast]; decide +kernel]
    norm_num
  obtain rfl := (C51_encoding_unique _).2 _ _ hA' hA
  obtain rfl := (C51_encoding_unique _).2 _ _ hR' hR
  rw [h0, h1, zero_nsmul, one_nsmul, zero_add] at he
  exact B_ne he.symm

/-! ### C60: the witnesses of built transactions -/

open TxBuilder Transaction Cbor

/-- The cryptography of the package: Blake2b-256 is a parameter, keys and signatures are those of `bip32`. -/
def packageCrypto (H : Hashes) (blake256 : Bytes → Bytes) : Crypto :=
  ⟨blake256, fun k => do PublicKey (← Public makePublicKey k), Sign H⟩

theorem packageCrypto_publicKey (H : Hashes) (bl : Bytes → Bytes) (key : Bytes) (hk : key.length = 96) (hs : leNat (key.take 32) < 2 ^ 255) :
    (packageCrypto H bl).publicKey key = MakePublicKey key := by
  obtain ⟨pk, x, h1, h2, h3, -⟩ := C36_public_key key hk hs
  rw [h1]
  show (Public makePublicKey key >>= PublicKey) = _
  rw [h2]; exact h3

/-- **C60.** When `Build` succeeds with keys of 96 bytes with scalars below `2^255`, the transaction has exactly one witness for each key,
in order, and each is a valid signature of the hash of the body of that transaction for the public key beside it, which is the one of the
key. -/
theorem C60_witnesses_verify (H : Hashes) (hH : H.Ok) (blake256 : Bytes → Bytes) (b b' : Builder) (h : Handle)
    (e : Build (packageCrypto H blake256) b = (.ok h, b'))
    (hk : ∀ k ∈ b.xprvs, k.length = 96 ∧ leNat (k.take 32) < 2 ^ 255) :
    ∃ bodyBytes, marshalBody (view b' h).body = .ok bodyBytes ∧
      All2 (fun (w : VKeyWitness) k => Encodes w.vkey (leNat (k.take 32) • B) ∧ Valid H.sha512 w.vkey (blake256 bodyBytes) w.signature)
        (view b' h).witness b.xprvs := by
  obtain ⟨-, bb, h1, h2⟩ := C24_build_signs_body _ b b' h e
  refine ⟨bb, h1, ?_⟩
  generalize (view b' h).witness = ws at *
  generalize b.xprvs = ks at *
  induction h2 with
  | nil => exact .nil
  | @cons w k ws ks hw _ ih =>
    refine .cons ?_ (ih fun k hk' => hk k (List.mem_cons_of_mem _ hk'))
    obtain ⟨hl, hs⟩ := hk k (List.mem_cons_self ..)
    obtain ⟨p1, p2⟩ := hw
    rw [packageCrypto_publicKey H blake256 k hl hs] at p1
    obtain ⟨pk, _, q1, _, _, _, q2⟩ := C36_public_key k hl hs
    obtain ⟨sig, pk', r1, r2, r3⟩ := C37_signature_valid H hH k hl hs (blake256 bb)
    rw [p1] at q1 r2
    injection q1 with q1
    injection r2 with r2
    subst q1
    subst r2
    have p2' : Sign H k (blake256 bb) = .ok w.signature := p2
    rw [r1] at p2'
    injection p2' with p2'
    subst p2'
    exact ⟨q2, r3⟩

/-- With keys as in the hypotheses, a builder without metadata, inputs and outputs can be built (any others that serialise will do). -/
theorem build_one_key (H : Hashes) (hH : H.Ok) (blake256 : Bytes → Bytes) (p : Protocol) (key : Bytes) (hk : key.length = 96) (hs : leNat (key.take 32) < 2 ^ 255) :
    ∃ h b', Build (packageCrypto H blake256) (NewTxBuilder p [key]) = (.ok h, b') ∧ (NewTxBuilder p [key]).xprvs = [key] := by
  obtain ⟨b0, hb0⟩ : ∃ b0, marshalBody (tx (NewTxBuilder p [key])).body = .ok b0 := ⟨_, rfl⟩
  obtain ⟨sig, pk, s1, s2, _⟩ := C37_signature_valid H hH key hk hs (blake256 b0)
  have p1 := packageCrypto_publicKey H blake256 key hk hs
  rw [s2] at p1
  have hh : Transaction.hash (packageCrypto H blake256) (tx (NewTxBuilder p [key])) (NewTxBuilder p [key]).clock = .ok (blake256 b0) := by
    have hc : calcAux (packageCrypto H blake256) (tx (NewTxBuilder p [key])) (NewTxBuilder p [key]).clock = .ok (tx (NewTxBuilder p [key])).body := rfl
    unfold Transaction.hash; rw [hc]; simp only [Res.ok_bind]; rw [hb0]; rfl
  have s1' : (packageCrypto H blake256).sign key (blake256 b0) = .ok sig := s1
  have hw : witnessesOf (packageCrypto H blake256) (blake256 b0) [key] = .ok [⟨pk, sig⟩] := by
    simp only [witnessesOf, witnessOf, p1, s1', Res.ok_bind]; rfl
  refine ⟨⟨1, true, none⟩, { NewTxBuilder p [key] with clock := 1, wits := [[], [⟨pk, sig⟩]], wit := 1 }, ?_, rfl⟩
  unfold Build
  rw [hh]
  have e3 : (NewTxBuilder p [key]).xprvs = [key] := rfl
  simp only [e3, hw]
  rfl

end Cardano.Props
