import Verif.Hash.Sha512
/-!
# BLAKE2b without key, after RFC 7693

The library calls `golang.org/x/crypto/blake2b`, which is not part of the repository. The theorems hold for every hash function with the right
output length; this concrete one serves to instantiate them and to run the model against the golden files.
-/
set_option autoImplicit false

namespace Cardano.Hash.Blake2b
open Sha512 (rotr)

/-- RFC 7693, 2.6: the initial values, those of SHA-512. -/
def iv : Array UInt64 := #[Sha512.init.a, Sha512.init.b, Sha512.init.c, Sha512.init.d, Sha512.init.e, Sha512.init.f, Sha512.init.g, Sha512.init.h]

/-- RFC 7693, 2.7: the permutations of the message words. -/
def sigma : Array (Array Nat) := #[
  #[0, 1, 2, 3, 4, 5, 6, 7, 8, 9, 10, 11, 12, 13, 14, 15],
  #[14, 10, 4, 8, 9, 15, 13, 6, 1, 12, 0, 2, 11, 7, 5, 3],
  #[11, 8, 12, 0, 5, 2, 15, 13, 10, 14, 3, 6, 7, 1, 9, 4],
  #[7, 9, 3, 1, 13, 12, 11, 14, 2, 6, 5, 10, 4, 0, 15, 8],
  #[9, 0, 5, 7, 2, 4, 10, 15, 14, 1, 11, 12, 6, 8, 3, 13],
  #[2, 12, 6, 10, 0, 11, 8, 3, 4, 13, 7, 5, 15, 14, 1, 9],
  #[12, 5, 1, 15, 14, 13, 4, 10, 0, 7, 6, 3, 9, 2, 8, 11],
  #[13, 11, 7, 14, 12, 1, 3, 9, 5, 0, 15, 4, 8, 6, 2, 10],
  #[6, 15, 14, 9, 11, 3, 0, 8, 12, 2, 13, 7, 1, 4, 10, 5],
  #[10, 2, 8, 4, 7, 6, 1, 5, 15, 11, 9, 14, 3, 12, 13, 0]]

/-- RFC 7693, 3.1: the mixing function. -/
def mix (v : Array UInt64) (a b c d : Nat) (x y : UInt64) : Array UInt64 :=
  let va := v[a]! + v[b]! + x
  let vd := rotr (v[d]! ^^^ va) 32
  let vc := v[c]! + vd
  let vb := rotr (v[b]! ^^^ vc) 24
  let va := va + vb + y
  let vd := rotr (vd ^^^ va) 16
  let vc := vc + vd
  let vb := rotr (vb ^^^ vc) 63
  (((v.set! a va).set! b vb).set! c vc).set! d vd

/-- RFC 7693, 3.2: one of the twelve rounds. -/
def round (m : Array UInt64) (v : Array UInt64) (r : Nat) : Array UInt64 :=
  let s := sigma[r % 10]!
  let w (i : Nat) : UInt64 := m[s[i]!]!
  let v := mix v 0 4 8 12 (w 0) (w 1)
  let v := mix v 1 5 9 13 (w 2) (w 3)
  let v := mix v 2 6 10 14 (w 4) (w 5)
  let v := mix v 3 7 11 15 (w 6) (w 7)
  let v := mix v 0 5 10 15 (w 8) (w 9)
  let v := mix v 1 6 11 12 (w 10) (w 11)
  let v := mix v 2 7 8 13 (w 12) (w 13)
  mix v 3 4 9 14 (w 14) (w 15)

/-- Little-endian words of a block. -/
def words : Bytes → Array UInt64 → Array UInt64
  | b0 :: b1 :: b2 :: b3 :: b4 :: b5 :: b6 :: b7 :: l, acc =>
    words l (acc.push (b0.toUInt64 ||| b1.toUInt64 <<< 8 ||| b2.toUInt64 <<< 16 ||| b3.toUInt64 <<< 24 ||| b4.toUInt64 <<< 32 |||
      b5.toUInt64 <<< 40 ||| b6.toUInt64 <<< 48 ||| b7.toUInt64 <<< 56))
  | _, acc => acc

/-- RFC 7693, 3.2: the compression function; `t` is the number of bytes so far (below 2^64), `last` marks the final block. -/
def compress (h : Array UInt64) (block : Bytes) (t : Nat) (last : Bool) : Array UInt64 :=
  let m := words block #[]
  let v := h ++ iv
  let v := v.set! 12 (v[12]! ^^^ UInt64.ofNat t)
  let v := if last then v.set! 14 (~~~ v[14]!) else v
  let v := (List.range 12).foldl (round m) v
  (Array.range 8).map fun i => h[i]! ^^^ v[i]! ^^^ v[i + 8]!

/-- RFC 7693, 3.3: all blocks; the last one is filled up with zeros. `t` bytes have been absorbed. -/
def blocks : Nat → Bytes → Nat → Array UInt64 → Array UInt64
  | 0, _, _, h => h
  | fuel + 1, m, t, h =>
    if m.length ≤ 128 then compress h (m ++ List.replicate (128 - m.length) 0) (t + m.length) true
    else blocks fuel (m.drop 128) (t + 128) (compress h (m.take 128) (t + 128) false)

/-- Little-endian bytes of a word. -/
def le (x : UInt64) : Bytes := [x.toUInt8, (x >>> 8).toUInt8, (x >>> 16).toUInt8, (x >>> 24).toUInt8, (x >>> 32).toUInt8, (x >>> 40).toUInt8,
  (x >>> 48).toUInt8, (x >>> 56).toUInt8]

/-- The digest of `n ≤ 64` bytes. -/
def hash (n : Nat) (m : Bytes) : Bytes :=
  let h := blocks (m.length / 128 + 1) m 0 (iv.set! 0 (iv[0]! ^^^ 0x01010000 ^^^ UInt64.ofNat n))
  (((List.range 8).map fun i => le h[i]!).flatten).take n

theorem hash_length (n : Nat) (hn : n ≤ 64) (m : Bytes) : (hash n m).length = n := by
  unfold hash
  simp only [List.length_take, List.length_flatten, List.map_map]
  have : List.map (List.length ∘ fun i => le (blocks (m.length / 128 + 1) m 0 (iv.set! 0 (iv[0]! ^^^ 0x01010000 ^^^ UInt64.ofNat n)))[i]!) (List.range 8)
      = List.replicate 8 8 := rfl
  rw [this]
  simp only [List.sum_replicate_nat]; omega

end Cardano.Hash.Blake2b
