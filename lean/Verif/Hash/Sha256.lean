import Verif.Go.Basic
/-!
# SHA-256, after FIPS 180-4

The library calls `crypto/sha256` of Go, which is not part of the repository. The theorems on keys and signatures hold for every hash function with the
right output length; this concrete one serves to instantiate them and to run the model against the golden files.
-/
set_option autoImplicit false

namespace Cardano.Hash.Sha256

/-- FIPS 180-4, 4.2.2. -/
def K : Array UInt32 := #[
  0x428a2f98, 0x71374491, 0xb5c0fbcf, 0xe9b5dba5, 0x3956c25b, 0x59f111f1, 0x923f82a4, 0xab1c5ed5,
  0xd807aa98, 0x12835b01, 0x243185be, 0x550c7dc3, 0x72be5d74, 0x80deb1fe, 0x9bdc06a7, 0xc19bf174,
  0xe49b69c1, 0xefbe4786, 0x0fc19dc6, 0x240ca1cc, 0x2de92c6f, 0x4a7484aa, 0x5cb0a9dc, 0x76f988da,
  0x983e5152, 0xa831c66d, 0xb00327c8, 0xbf597fc7, 0xc6e00bf3, 0xd5a79147, 0x06ca6351, 0x14292967,
  0x27b70a85, 0x2e1b2138, 0x4d2c6dfc, 0x53380d13, 0x650a7354, 0x766a0abb, 0x81c2c92e, 0x92722c85,
  0xa2bfe8a1, 0xa81a664b, 0xc24b8b70, 0xc76c51a3, 0xd192e819, 0xd6990624, 0xf40e3585, 0x106aa070,
  0x19a4c116, 0x1e376c08, 0x2748774c, 0x34b0bcb5, 0x391c0cb3, 0x4ed8aa4a, 0x5b9cca4f, 0x682e6ff3,
  0x748f82ee, 0x78a5636f, 0x84c87814, 0x8cc70208, 0x90befffa, 0xa4506ceb, 0xbef9a3f7, 0xc67178f2]

/-- The eight working variables. -/
structure St where
  a : UInt32
  b : UInt32
  c : UInt32
  d : UInt32
  e : UInt32
  f : UInt32
  g : UInt32
  h : UInt32

/-- FIPS 180-4, 5.3.3. -/
def init : St := ⟨
  0x6a09e667, 0xbb67ae85, 0x3c6ef372, 0xa54ff53a, 0x510e527f, 0x9b05688c, 0x1f83d9ab, 0x5be0cd19⟩

/-- Rotation to the right. -/
@[inline] def rotr (x n : UInt32) : UInt32 := (x >>> n) ||| (x <<< (32 - n))

/-- Big-endian words of a block. -/
def words : Bytes → Array UInt32 → Array UInt32
  | b0 :: b1 :: b2 :: b3 :: l, acc =>
    words l (acc.push (b0.toUInt32 <<< 24 ||| b1.toUInt32 <<< 16 ||| b2.toUInt32 <<< 8 ||| b3.toUInt32))
  | _, acc => acc

/-- The message schedule, FIPS 180-4, 6.2.2; `n` words are still to be added. -/
def schedule : Nat → Array UInt32 → Array UInt32
  | 0, w => w
  | n + 1, w =>
    let t := w.size
    let x := w[t - 2]!
    let y := w[t - 15]!
    let s1 := rotr x 17 ^^^ rotr x 19 ^^^ (x >>> 10)
    let s0 := rotr y 7 ^^^ rotr y 18 ^^^ (y >>> 3)
    schedule n (w.push (s1 + w[t - 7]! + s0 + w[t - 16]!))

/-- One round, FIPS 180-4, 6.2.2. -/
def round (s : St) (k w : UInt32) : St :=
  let S1 := rotr s.e 6 ^^^ rotr s.e 11 ^^^ rotr s.e 25
  let ch := (s.e &&& s.f) ^^^ (~~~ s.e &&& s.g)
  let t1 := s.h + S1 + ch + k + w
  let S0 := rotr s.a 2 ^^^ rotr s.a 13 ^^^ rotr s.a 22
  let maj := (s.a &&& s.b) ^^^ (s.a &&& s.c) ^^^ (s.b &&& s.c)
  ⟨t1 + (S0 + maj), s.a, s.b, s.c, s.d + t1, s.e, s.f, s.g⟩

/-- The rounds `t` to 63. -/
def rounds (w : Array UInt32) : Nat → Nat → St → St
  | 0, _, s => s
  | n + 1, t, s => rounds w n (t + 1) (round s K[t]! w[t]!)

/-- One block. -/
def compress (s : St) (block : Bytes) : St :=
  let r := rounds (schedule 48 (words block #[])) 64 0 s
  ⟨s.a + r.a, s.b + r.b, s.c + r.c, s.d + r.d, s.e + r.e, s.f + r.f, s.g + r.g, s.h + r.h⟩

/-- Padding, FIPS 180-4, 5.1.1: a one bit, zeros, the length in bits. -/
def pad (m : Bytes) : Bytes :=
  let n := m.length
  m ++ ((0x80 : UInt8) :: (List.replicate ((119 - n % 64) % 64) (0 : UInt8) ++ (List.range 8).map fun i => UInt8.ofNat ((8 * n) >>> (8 * (7 - i)))))

/-- All blocks; `fuel` is the number of blocks. -/
def blocks : Nat → Bytes → St → St
  | 0, _, s => s
  | fuel + 1, m, s => blocks fuel (m.drop 64) (compress s (m.take 64))

/-- Big-endian bytes of a word. -/
def be (x : UInt32) : Bytes := [(x >>> 24).toUInt8, (x >>> 16).toUInt8, (x >>> 8).toUInt8, x.toUInt8]

/-- The digest. -/
def hash (m : Bytes) : Bytes :=
  let p := pad m
  let s := blocks (p.length / 64) p init
  be s.a ++ be s.b ++ be s.c ++ be s.d ++ be s.e ++ be s.f ++ be s.g ++ be s.h

theorem hash_length (m : Bytes) : (hash m).length = 32 := rfl

end Cardano.Hash.Sha256
