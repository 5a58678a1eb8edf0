import Verif.Ed25519.Machine
/-!
# Model of the scalar arithmetic of `crypto/edwards25519/edwards25519.go`

Scalars are 32-byte (or, before reduction, 64-byte) little-endian numbers cut into 21-bit limbs held in `int64` variables.
-/
set_option autoImplicit false

namespace Cardano.Ed

/-- Byte `k` of an array (all uses are in range of the array). -/
def at8 (b : Bytes) (k : Nat) : Nat := (b.getD k 0).toNat

/-- edwards25519.go:77-83 `load3(in[k:])`. -/
def load3 (b : Bytes) (k : Nat) : Nat := at8 b k ||| at8 b (k + 1) <<< 8 ||| at8 b (k + 2) <<< 16

/-- edwards25519.go:85-92 `load4(in[k:])`. -/
def load4 (b : Bytes) (k : Nat) : Nat :=
  at8 b k ||| at8 b (k + 1) <<< 8 ||| at8 b (k + 2) <<< 16 ||| at8 b (k + 3) <<< 24

/-- `byte(x)` for a signed integer. -/
def byteOf (x : Int) : UInt8 := UInt8.ofNat (x % 256).toNat

/-- `byte(x >> k)` -/
def lowByte (x : Int) (k : Nat) : UInt8 := byteOf (x / 2 ^ k)

/-- `byte((x >> k) | (y << m))`; the conversion to a byte commutes with `|`. -/
def joinByte (x : Int) (k : Nat) (y : Int) (m : Nat) : UInt8 := byteOf (x / 2 ^ k) ||| byteOf (y * 2 ^ m)

/-- edwards25519.go:1027-1038 (and 1039-1062, with the other arguments): the twelve limbs of a 32-byte scalar. -/
def limbs32 (a : Bytes) : Limbs :=
  [ 2097151 &&& load3 a 0
  , 2097151 &&& (load4 a 2 >>> 5)
  , 2097151 &&& (load3 a 5 >>> 2)
  , 2097151 &&& (load4 a 7 >>> 7)
  , 2097151 &&& (load4 a 10 >>> 4)
  , 2097151 &&& (load3 a 13 >>> 1)
  , 2097151 &&& (load4 a 15 >>> 6)
  , 2097151 &&& (load3 a 18 >>> 3)
  , 2097151 &&& load3 a 21
  , 2097151 &&& (load4 a 23 >>> 5)
  , 2097151 &&& (load3 a 26 >>> 2)
  , load4 a 28 >>> 7 ].map (fun n : Nat => (n : Int))

/-- edwards25519.go:1458-1481: the 24 limbs of a 64-byte number. -/
def limbs64 (s : Bytes) : Limbs :=
  [ 2097151 &&& load3 s 0
  , 2097151 &&& (load4 s 2 >>> 5)
  , 2097151 &&& (load3 s 5 >>> 2)
  , 2097151 &&& (load4 s 7 >>> 7)
  , 2097151 &&& (load4 s 10 >>> 4)
  , 2097151 &&& (load3 s 13 >>> 1)
  , 2097151 &&& (load4 s 15 >>> 6)
  , 2097151 &&& (load3 s 18 >>> 3)
  , 2097151 &&& load3 s 21
  , 2097151 &&& (load4 s 23 >>> 5)
  , 2097151 &&& (load3 s 26 >>> 2)
  , 2097151 &&& (load4 s 28 >>> 7)
  , 2097151 &&& (load4 s 31 >>> 4)
  , 2097151 &&& (load3 s 34 >>> 1)
  , 2097151 &&& (load4 s 36 >>> 6)
  , 2097151 &&& (load3 s 39 >>> 3)
  , 2097151 &&& load3 s 42
  , 2097151 &&& (load4 s 44 >>> 5)
  , 2097151 &&& (load3 s 47 >>> 2)
  , 2097151 &&& (load4 s 49 >>> 7)
  , 2097151 &&& (load4 s 52 >>> 4)
  , 2097151 &&& (load3 s 55 >>> 1)
  , 2097151 &&& (load4 s 57 >>> 6)
  , load4 s 60 >>> 3 ].map (fun n : Nat => (n : Int))

/-- `carry[i] = (s_i + (1 << 20)) >> 21;  s_{i+1} += carry[i];  s_i -= carry[i] << 21`, e.g. edwards25519.go:1090-1092. -/
def rd (i : Nat) : Op := .carry i (i + 1) 21 1048576 1

/-- `carry[i] = s_i >> 21;  s_{i+1} += carry[i];  s_i -= carry[i] << 21`, e.g. edwards25519.go:1338-1340. -/
def fl (i : Nat) : Op := .carry i (i + 1) 21 0 1

/-- The seven lines which replace limb `j` by lower ones, e.g. edwards25519.go:1161-1167. -/
def red (j : Nat) : Op :=
  .fold j [(j - 12, 666643), (j - 11, 470296), (j - 10, 654183), (j - 9, -997805), (j - 8, 136657), (j - 7, -683901)]

/-- edwards25519.go:1483-1660 and 1161-1336 (the same text): up to and including the reduction before the two last carry chains. -/
def scMain : List Op :=
  [23, 22, 21, 20, 19, 18].map red
  ++ [6, 8, 10, 12, 14, 16].map rd ++ [7, 9, 11, 13, 15].map rd
  ++ [17, 16, 15, 14, 13, 12].map red
  ++ [0, 2, 4, 6, 8, 10].map rd ++ [1, 3, 5, 7, 9, 11].map rd
  ++ [red 12]

/-- edwards25519.go:1662-1697 and 1338-1373: carries rounding down through all twelve limbs. -/
def scChain : List Op := [0, 1, 2, 3, 4, 5, 6, 7, 8, 9, 10, 11].map fl

/-- edwards25519.go:1699-1739 and 1375-1415: the last reduction and carry chain. -/
def scLast : List Op := [red 12] ++ [0, 1, 2, 3, 4, 5, 6, 7, 8, 9, 10].map fl

/-- edwards25519.go:1741-1772 and 1417-1448: the bytes of twelve limbs. -/
def packScalar (s : Limbs) : Bytes :=
  let s0 := lget s 0
  let s1 := lget s 1
  let s2 := lget s 2
  let s3 := lget s 3
  let s4 := lget s 4
  let s5 := lget s 5
  let s6 := lget s 6
  let s7 := lget s 7
  let s8 := lget s 8
  let s9 := lget s 9
  let s10 := lget s 10
  let s11 := lget s 11
  [ lowByte s0 0, lowByte s0 8, joinByte s0 16 s1 5, lowByte s1 3, lowByte s1 11, joinByte s1 19 s2 2
  , lowByte s2 6, joinByte s2 14 s3 7, lowByte s3 1, lowByte s3 9, joinByte s3 17 s4 4, lowByte s4 4
  , lowByte s4 12, joinByte s4 20 s5 1, lowByte s5 7, joinByte s5 15 s6 6, lowByte s6 2, lowByte s6 10
  , joinByte s6 18 s7 3, lowByte s7 5, lowByte s7 13, lowByte s8 0, lowByte s8 8, joinByte s8 16 s9 5
  , lowByte s9 3, lowByte s9 11, joinByte s9 19 s10 2, lowByte s10 6, joinByte s10 14 s11 7, lowByte s11 1
  , lowByte s11 9, lowByte s11 17 ]

/-- edwards25519.go:1457-1773 `ScReduce`. -/
def ScReduce (s : Bytes) : Bytes := packScalar (exec 64 (limbs64 s) (scMain ++ scChain ++ scLast))

/-- edwards25519.go:1065-1088: the limbs of `ab+c`. Variables 0-11 are the limbs of `a`, 12-23 those of `b`, 24-35 those of
`c`. -/
def mulAddLimbs : List E :=
  let a := E.v
  let b := fun i => E.v (12 + i)
  let c := fun i => E.v (24 + i)
  [ c 0 + a 0 * b 0
  , c 1 + a 0 * b 1 + a 1 * b 0
  , c 2 + a 0 * b 2 + a 1 * b 1 + a 2 * b 0
  , c 3 + a 0 * b 3 + a 1 * b 2 + a 2 * b 1 + a 3 * b 0
  , c 4 + a 0 * b 4 + a 1 * b 3 + a 2 * b 2 + a 3 * b 1 + a 4 * b 0
  , c 5 + a 0 * b 5 + a 1 * b 4 + a 2 * b 3 + a 3 * b 2 + a 4 * b 1 + a 5 * b 0
  , c 6 + a 0 * b 6 + a 1 * b 5 + a 2 * b 4 + a 3 * b 3 + a 4 * b 2 + a 5 * b 1 + a 6 * b 0
  , c 7 + a 0 * b 7 + a 1 * b 6 + a 2 * b 5 + a 3 * b 4 + a 4 * b 3 + a 5 * b 2 + a 6 * b 1 + a 7 * b 0
  , c 8 + a 0 * b 8 + a 1 * b 7 + a 2 * b 6 + a 3 * b 5 + a 4 * b 4 + a 5 * b 3 + a 6 * b 2 + a 7 * b 1 + a 8 * b 0
  , c 9 + a 0 * b 9 + a 1 * b 8 + a 2 * b 7 + a 3 * b 6 + a 4 * b 5 + a 5 * b 4 + a 6 * b 3 + a 7 * b 2 + a 8 * b 1 + a 9 * b 0
  , c 10 + a 0 * b 10 + a 1 * b 9 + a 2 * b 8 + a 3 * b 7 + a 4 * b 6 + a 5 * b 5 + a 6 * b 4 + a 7 * b 3 + a 8 * b 2 + a 9 * b 1
      + a 10 * b 0
  , c 11 + a 0 * b 11 + a 1 * b 10 + a 2 * b 9 + a 3 * b 8 + a 4 * b 7 + a 5 * b 6 + a 6 * b 5 + a 7 * b 4 + a 8 * b 3 + a 9 * b 2
      + a 10 * b 1 + a 11 * b 0
  , a 1 * b 11 + a 2 * b 10 + a 3 * b 9 + a 4 * b 8 + a 5 * b 7 + a 6 * b 6 + a 7 * b 5 + a 8 * b 4 + a 9 * b 3 + a 10 * b 2
      + a 11 * b 1
  , a 2 * b 11 + a 3 * b 10 + a 4 * b 9 + a 5 * b 8 + a 6 * b 7 + a 7 * b 6 + a 8 * b 5 + a 9 * b 4 + a 10 * b 3 + a 11 * b 2
  , a 3 * b 11 + a 4 * b 10 + a 5 * b 9 + a 6 * b 8 + a 7 * b 7 + a 8 * b 6 + a 9 * b 5 + a 10 * b 4 + a 11 * b 3
  , a 4 * b 11 + a 5 * b 10 + a 6 * b 9 + a 7 * b 8 + a 8 * b 7 + a 9 * b 6 + a 10 * b 5 + a 11 * b 4
  , a 5 * b 11 + a 6 * b 10 + a 7 * b 9 + a 8 * b 8 + a 9 * b 7 + a 10 * b 6 + a 11 * b 5
  , a 6 * b 11 + a 7 * b 10 + a 8 * b 9 + a 9 * b 8 + a 10 * b 7 + a 11 * b 6
  , a 7 * b 11 + a 8 * b 10 + a 9 * b 9 + a 10 * b 8 + a 11 * b 7
  , a 8 * b 11 + a 9 * b 10 + a 10 * b 9 + a 11 * b 8
  , a 9 * b 11 + a 10 * b 10 + a 11 * b 9
  , a 10 * b 11 + a 11 * b 10
  , a 11 * b 11 ]

/-- edwards25519.go:1090-1159: the first carries of `ScMulAdd`. -/
def mulAddCarries : List Op :=
  [0, 2, 4, 6, 8, 10, 12, 14, 16, 18, 20, 22].map rd ++ [1, 3, 5, 7, 9, 11, 13, 15, 17, 19, 21].map rd

/-- edwards25519.go:1026-1449 `ScMulAdd`. -/
def ScMulAdd (a b c : Bytes) : Bytes :=
  let x := limbs32 a ++ limbs32 b ++ limbs32 c
  let s := mulAddLimbs.map (E.eval x) ++ [0]
  packScalar (exec 64 s (mulAddCarries ++ scMain ++ scChain ++ scLast))

/-- edwards25519.go:1776 `order`. -/
def order : List Nat := [0x5812631a5cf5d3ed, 0x14def9dea2f79cd6, 0, 0x1000000000000000]

/-- `binary.LittleEndian.Uint64(scalar[8*i:])` -/
def load64 (b : Bytes) (i : Nat) : Nat :=
  at8 b (8 * i) ||| at8 b (8 * i + 1) <<< 8 ||| at8 b (8 * i + 2) <<< 16 ||| at8 b (8 * i + 3) <<< 24
    ||| at8 b (8 * i + 4) <<< 32 ||| at8 b (8 * i + 5) <<< 40 ||| at8 b (8 * i + 6) <<< 48 ||| at8 b (8 * i + 7) <<< 56

/-- edwards25519.go:1781-1791, the loop of `ScMinimal` from index `i` down to 0. -/
def scMinimalLoop (scalar : Bytes) : Nat → Bool
  | 0 =>
    if load64 scalar 0 > order.getD 0 0 then false
    else if load64 scalar 0 < order.getD 0 0 then true
    else false
  | i + 1 =>
    if load64 scalar (i + 1) > order.getD (i + 1) 0 then false
    else if load64 scalar (i + 1) < order.getD (i + 1) 0 then true
    else scMinimalLoop scalar i

/-- edwards25519.go:1780-1793 `ScMinimal`. -/
def ScMinimal (scalar : Bytes) : Bool := scMinimalLoop scalar 3

end Cardano.Ed
