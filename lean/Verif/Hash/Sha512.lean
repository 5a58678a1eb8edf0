import Verif.Go.Basic
/-!
# SHA-512, after FIPS 180-4

The library calls `crypto/sha512` of Go, which is not part of the repository. The theorems on keys and signatures hold for every hash function with the
right output length; this concrete one serves to instantiate them and to run the model against the golden files.
-/
set_option autoImplicit false

namespace Cardano.Hash.Sha512

/-- FIPS 180-4, 4.2.3. -/
def K : Array UInt64 := #[
  0x428a2f98d728ae22, 0x7137449123ef65cd, 0xb5c0fbcfec4d3b2f, 0xe9b5dba58189dbbc,
  0x3956c25bf348b538, 0x59f111f1b605d019, 0x923f82a4af194f9b, 0xab1c5ed5da6d8118,
  0xd807aa98a3030242, 0x12835b0145706fbe, 0x243185be4ee4b28c, 0x550c7dc3d5ffb4e2,
  0x72be5d74f27b896f, 0x80deb1fe3b1696b1, 0x9bdc06a725c71235, 0xc19bf174cf692694,
  0xe49b69c19ef14ad2, 0xefbe4786384f25e3, 0x0fc19dc68b8cd5b5, 0x240ca1cc77ac9c65,
  0x2de92c6f592b0275, 0x4a7484aa6ea6e483, 0x5cb0a9dcbd41fbd4, 0x76f988da831153b5,
  0x983e5152ee66dfab, 0xa831c66d2db43210, 0xb00327c898fb213f, 0xbf597fc7beef0ee4,
  0xc6e00bf33da88fc2, 0xd5a79147930aa725, 0x06ca6351e003826f, 0x142929670a0e6e70,
  0x27b70a8546d22ffc, 0x2e1b21385c26c926, 0x4d2c6dfc5ac42aed, 0x53380d139d95b3df,
  0x650a73548baf63de, 0x766a0abb3c77b2a8, 0x81c2c92e47edaee6, 0x92722c851482353b,
  0xa2bfe8a14cf10364, 0xa81a664bbc423001, 0xc24b8b70d0f89791, 0xc76c51a30654be30,
  0xd192e819d6ef5218, 0xd69906245565a910, 0xf40e35855771202a, 0x106aa07032bbd1b8,
  0x19a4c116b8d2d0c8, 0x1e376c085141ab53, 0x2748774cdf8eeb99, 0x34b0bcb5e19b48a8,
  0x391c0cb3c5c95a63, 0x4ed8aa4ae3418acb, 0x5b9cca4f7763e373, 0x682e6ff3d6b2b8a3,
  0x748f82ee5defb2fc, 0x78a5636f43172f60, 0x84c87814a1f0ab72, 0x8cc702081a6439ec,
  0x90befffa23631e28, 0xa4506cebde82bde9, 0xbef9a3f7b2c67915, 0xc67178f2e372532b,
  0xca273eceea26619c, 0xd186b8c721c0c207, 0xeada7dd6cde0eb1e, 0xf57d4f7fee6ed178,
  0x06f067aa72176fba, 0x0a637dc5a2c898a6, 0x113f9804bef90dae, 0x1b710b35131c471b,
  0x28db77f523047d84, 0x32caab7b40c72493, 0x3c9ebe0a15c9bebc, 0x431d67c49c100d4c,
  0x4cc5d4becb3e42b6, 0x597f299cfc657e2a, 0x5fcb6fab3ad6faec, 0x6c44198c4a475817]

/-- The eight working variables. -/
structure St where
  a : UInt64
  b : UInt64
  c : UInt64
  d : UInt64
  e : UInt64
  f : UInt64
  g : UInt64
  h : UInt64

/-- FIPS 180-4, 5.3.5. -/
def init : St := ⟨
  0x6a09e667f3bcc908, 0xbb67ae8584caa73b, 0x3c6ef372fe94f82b, 0xa54ff53a5f1d36f1,
  0x510e527fade682d1, 0x9b05688c2b3e6c1f, 0x1f83d9abfb41bd6b, 0x5be0cd19137e2179⟩

/-- Rotation to the right. -/
@[inline] def rotr (x n : UInt64) : UInt64 := (x >>> n) ||| (x <<< (64 - n))

/-- Big-endian words of a block. -/
def words : Bytes → Array UInt64 → Array UInt64
  | b0 :: b1 :: b2 :: b3 :: b4 :: b5 :: b6 :: b7 :: l, acc =>
    words l (acc.push (b0.toUInt64 <<< 56 ||| b1.toUInt64 <<< 48 ||| b2.toUInt64 <<< 40 ||| b3.toUInt64 <<< 32 ||| b4.toUInt64 <<< 24 ||| b5.toUInt64 <<< 16 ||| b6.toUInt64 <<< 8 ||| b7.toUInt64))
  | _, acc => acc

/-- The message schedule, FIPS 180-4, 6.4.2; `n` words are still to be added. -/
def schedule : Nat → Array UInt64 → Array UInt64
  | 0, w => w
  | n + 1, w =>
    let t := w.size
    let x := w[t - 2]!
    let y := w[t - 15]!
    let s1 := rotr x 19 ^^^ rotr x 61 ^^^ (x >>> 6)
    let s0 := rotr y 1 ^^^ rotr y 8 ^^^ (y >>> 7)
    schedule n (w.push (s1 + w[t - 7]! + s0 + w[t - 16]!))

/-- One round, FIPS 180-4, 6.4.2. -/
def round (s : St) (k w : UInt64) : St :=
  let S1 := rotr s.e 14 ^^^ rotr s.e 18 ^^^ rotr s.e 41
  let ch := (s.e &&& s.f) ^^^ (~~~ s.e &&& s.g)
  let t1 := s.h + S1 + ch + k + w
  let S0 := rotr s.a 28 ^^^ rotr s.a 34 ^^^ rotr s.a 39
  let maj := (s.a &&& s.b) ^^^ (s.a &&& s.c) ^^^ (s.b &&& s.c)
  ⟨t1 + (S0 + maj), s.a, s.b, s.c, s.d + t1, s.e, s.f, s.g⟩

/-- The rounds `t` to 79. -/
def rounds (w : Array UInt64) : Nat → Nat → St → St
  | 0, _, s => s
  | n + 1, t, s => rounds w n (t + 1) (round s K[t]! w[t]!)

/-- One block. -/
def compress (s : St) (block : Bytes) : St :=
  let r := rounds (schedule 64 (words block #[])) 80 0 s
  ⟨s.a + r.a, s.b + r.b, s.c + r.c, s.d + r.d, s.e + r.e, s.f + r.f, s.g + r.g, s.h + r.h⟩

/-- Padding, FIPS 180-4, 5.1.2: a one bit, zeros, the length in bits. -/
def pad (m : Bytes) : Bytes :=
  let n := m.length
  m ++ ((0x80 : UInt8) :: (List.replicate ((239 - n % 128) % 128) (0 : UInt8) ++ (List.range 16).map fun i => UInt8.ofNat ((8 * n) >>> (8 * (15 - i)))))

/-- All blocks; `fuel` is the number of blocks. -/
def blocks : Nat → Bytes → St → St
  | 0, _, s => s
  | fuel + 1, m, s => blocks fuel (m.drop 128) (compress s (m.take 128))

/-- Big-endian bytes of a word. -/
def be (x : UInt64) : Bytes := [(x >>> 56).toUInt8, (x >>> 48).toUInt8, (x >>> 40).toUInt8, (x >>> 32).toUInt8, (x >>> 24).toUInt8, (x >>> 16).toUInt8, (x >>> 8).toUInt8, x.toUInt8]

/-- The digest. -/
def hash (m : Bytes) : Bytes :=
  let p := pad m
  let s := blocks (p.length / 128) p init
  be s.a ++ be s.b ++ be s.c ++ be s.d ++ be s.e ++ be s.f ++ be s.g ++ be s.h

theorem hash_length (m : Bytes) : (hash m).length = 64 := rfl

end Cardano.Hash.Sha512
