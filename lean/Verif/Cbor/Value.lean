import Verif.Cbor.Complete
import Mathlib.Data.List.FinRange
/-!
# `cbor.Marshal` on Go values

The metadata of a transaction is an `interface{}` handed to `cbor.Marshal` of `github.com/fxamacker/cbor` v2.4.0 with default options (tx.go:85 and, inside the transaction, tx.go:34
and tx.go:68). The library is external and modelled from its documentation: integers, big integers, floats, strings, byte slices and arrays, booleans, slices, maps, structs, tags, and types with
their own `MarshalCBOR`; entries of a map are written in the order in which Go iterates over the map, which is random (`SortNone`), fields of a struct in the order of their
declaration. A `time.Time` is written as `int` (seconds, option `TimeUnix`), the zero time as `nil`. Not modelled: values that cannot be encoded (functions, channels, a
`MarshalCBOR` with an error) and a `MarshalCBOR` that does not always return the same bytes.
-/
set_option autoImplicit false

namespace Cardano.Cbor

/-- A Go value, with interfaces and pointers followed. `nil` is a nil interface, pointer, slice or map; `bytes` is a `[]byte` that is not nil or an array of bytes. The entries of a
map are numbered in some order, which means nothing. `record` is a struct with the keys of its fields (names, or numbers with `keyasint`), without those that `omitempty` leaves
out; a struct with `toarray` is a `list`. Floats are given by their bits. `tag` is a `cbor.Tag`, `raw` a value whose `MarshalCBOR` returns the bytes (also `cbor.RawMessage`). -/
inductive GoVal where
  | nil
  | bool (b : Bool)
  | uint (n : UInt64)
  | int (n : Int64)
  | bytes (b : Bytes)
  | text (s : Bytes)
  | list (n : Nat) (xs : Fin n → GoVal)
  | map (n : Nat) (ks vs : Fin n → GoVal)
  | float64 (bits : UInt64)
  | float32 (bits : UInt32)
  | big (n : Int)
  | record (n : Nat) (ks vs : Fin n → GoVal)
  | tag (t : UInt64) (v : GoVal)
  | raw (b : Bytes)

/-- `encodeInt`. -/
def encInt (n : Int64) : Bytes := if 0 ≤ n then encHead 0x00 n.toUInt64 else encHead 0x20 (n * (-1) - 1).toUInt64

/-- `encodeString`. -/
def encText (s : Bytes) : Bytes := encHead 0x60 (UInt64.ofNat s.length) ++ s

/-- `encodeNaN` with the default `NaNConvert7e00`, `encodeInf` with the default `InfConvertFloat16`. -/
def encNaN : Bytes := [0xf9, 0x7e, 0x00]
def encInf (neg : Bool) : Bytes := if neg then [0xf9, 0xfc, 0x00] else [0xf9, 0x7c, 0x00]

/-- `encodeFloat` of a `float64` with the default `ShortestFloatNone`; `IsNaN` and `IsInf` of package `math` on the bits. -/
def encFloat64 (bits : UInt64) : Bytes :=
  if bits.toNat / 2 ^ 52 % 2 ^ 11 = 2 ^ 11 - 1 then
    if bits.toNat % 2 ^ 52 ≠ 0 then encNaN else encInf (bits.toNat / 2 ^ 63 = 1)
  else 0xfb :: beBytes 8 bits.toNat

/-- `encodeFloat` of a `float32`. -/
def encFloat32 (bits : UInt32) : Bytes :=
  if bits.toNat / 2 ^ 23 % 2 ^ 8 = 2 ^ 8 - 1 then
    if bits.toNat % 2 ^ 23 ≠ 0 then encNaN else encInf (bits.toNat / 2 ^ 31 = 1)
  else 0xfa :: beBytes 4 bits.toNat

/-- `(*big.Int).Bytes`. -/
def natBytes (n : Nat) : Bytes := if n = 0 then [] else natBytes (n / 256) ++ [UInt8.ofNat n]
  termination_by n

/-- `encodeBigInt` with the default `BigIntConvertShortest`. -/
def encBig (n : Int) : Bytes :=
  if 0 ≤ n then
    if n.toNat < 2 ^ 64 then encHead 0x00 (UInt64.ofNat n.toNat) else encTag 2 (encBytes (natBytes n.toNat))
  else
    if (-1 - n).toNat < 2 ^ 64 then encHead 0x20 (UInt64.ofNat (-1 - n).toNat) else encTag 3 (encBytes (natBytes (-1 - n).toNat))

/-- `cbor.Marshal` of the value can return these bytes. -/
inductive Marshals : GoVal → Bytes → Prop
  | nil : Marshals .nil encNil
  | bool (b : Bool) : Marshals (.bool b) (encBool b)
  | uint (n : UInt64) : Marshals (.uint n) (encUint n)
  | int (n : Int64) : Marshals (.int n) (encInt n)
  | bytes (b : Bytes) : Marshals (.bytes b) (encBytes b)
  | text (s : Bytes) : Marshals (.text s) (encText s)
  | list (n : Nat) (xs : Fin n → GoVal) (bs : Fin n → Bytes) (h : ∀ i, Marshals (xs i) (bs i)) : Marshals (.list n xs) (encArray (List.ofFn bs))
  | map (n : Nat) (ks vs : Fin n → GoVal) (kb vb : Fin n → Bytes) (order : List (Fin n)) (hk : ∀ i, Marshals (ks i) (kb i)) (hv : ∀ i, Marshals (vs i) (vb i))
      (ho : order.Perm (List.finRange n)) : Marshals (.map n ks vs) (encMap (order.map fun i => (kb i, vb i)))
  | float64 (bits : UInt64) : Marshals (.float64 bits) (encFloat64 bits)
  | float32 (bits : UInt32) : Marshals (.float32 bits) (encFloat32 bits)
  | big (n : Int) : Marshals (.big n) (encBig n)
  | record (n : Nat) (ks vs : Fin n → GoVal) (kb vb : Fin n → Bytes) (hk : ∀ i, Marshals (ks i) (kb i)) (hv : ∀ i, Marshals (vs i) (vb i)) :
      Marshals (.record n ks vs) (encMap (List.ofFn fun i => (kb i, vb i)))
  | tag (t : UInt64) (v : GoVal) (b : Bytes) (h : Marshals v b) : Marshals (.tag t v) (encTag t b)
  | raw (b : Bytes) : Marshals (.raw b) b

/-! ## Specification: what an item must be to represent a value -/

/-- The number stands for the value. -/
def IntItem (n : Int) : Item → Prop
  | .uint m => n = m
  | .nint m => n = -1 - (m : Int)
  | _ => False

/-- The item is the integer in the preferred form: a number if it fits in 64 bits, otherwise a bignum (RFC 8949, 3.4.3). -/
def BigItem (n : Int) (x : Item) : Prop :=
  if -2 ^ 64 ≤ n ∧ n < 2 ^ 64 then IntItem n x
  else if 0 ≤ n then ∃ b, x = .tag 2 (.bytes b) ∧ n = beVal b
  else ∃ b, x = .tag 3 (.bytes b) ∧ n = -1 - (beVal b : Int)

/-- Values of IEEE 754 numbers; `fin neg n` is the number `n / 2^1074` with its sign. -/
inductive FloatVal where
  | nan
  | inf (neg : Bool)
  | fin (neg : Bool) (n : Nat)
  deriving DecidableEq

/-- The value of a float of `w` bytes (2, 4 or 8): widths of exponent and mantissa, and the logarithm of the least positive number times `2^1074`. -/
def floatVal (w bits : Nat) : FloatVal :=
  let p : Nat × Nat × Nat := if w = 2 then (5, 10, 1050) else if w = 4 then (8, 23, 925) else (11, 52, 0)
  let m := bits % 2 ^ p.2.1
  let e := bits / 2 ^ p.2.1 % 2 ^ p.1
  let neg : Bool := bits / 2 ^ (p.1 + p.2.1) % 2 = 1
  if e = 2 ^ p.1 - 1 then (if m = 0 then .inf neg else .nan)
  else if e = 0 then .fin neg (m * 2 ^ p.2.2)
  else .fin neg ((2 ^ p.2.1 + m) * 2 ^ (e - 1) * 2 ^ p.2.2)

/-- The item is a float with this value. -/
def FloatItem (v : FloatVal) (x : Item) : Prop := ∃ w b, x = .float w b ∧ (w = 2 ∨ w = 4 ∨ w = 8) ∧ floatVal w b = v

/-- The item says what the value is (RFC 8949). -/
def Represents : GoVal → Item → Prop
  | .nil, x => x = .simple 22
  | .bool b, x => x = .simple (if b then 21 else 20)
  | .uint n, x => IntItem n.toNat x
  | .int n, x => IntItem n.toInt x
  | .bytes b, x => x = .bytes b
  | .text s, x => x = .text s
  | .list n xs, x => ∃ is : Fin n → Item, x = .array (List.ofFn is) ∧ ∀ i, Represents (xs i) (is i)
  | .map n ks vs, x => ∃ (ki vi : Fin n → Item) (order : List (Fin n)), order.Perm (List.finRange n) ∧
      x = .map (flatPairs (order.map fun i => (ki i, vi i))) ∧ (∀ i, Represents (ks i) (ki i)) ∧ ∀ i, Represents (vs i) (vi i)
  | .float64 bits, x => FloatItem (floatVal 8 bits.toNat) x
  | .float32 bits, x => FloatItem (floatVal 4 bits.toNat) x
  | .big n, x => BigItem n x
  | .record n ks vs, x => ∃ ki vi : Fin n → Item, x = .map (flatPairs (List.ofFn fun i => (ki i, vi i))) ∧ (∀ i, Represents (ks i) (ki i)) ∧ ∀ i, Represents (vs i) (vi i)
  | .tag t v, x => ∃ y, x = .tag t.toNat y ∧ Represents v y
  | .raw b, x => parse b = some x

/-- Lengths are those of a 64-bit machine, and what a `MarshalCBOR` returns is one item. -/
def GoVal.Fits : GoVal → Prop
  | .bytes b => b.length < 2 ^ 63
  | .text s => s.length < 2 ^ 63
  | .list n xs => n < 2 ^ 63 ∧ ∀ i, (xs i).Fits
  | .map n ks vs => n < 2 ^ 63 ∧ (∀ i, (ks i).Fits) ∧ ∀ i, (vs i).Fits
  | .big n => (natBytes n.toNat).length < 2 ^ 63 ∧ (natBytes (-1 - n).toNat).length < 2 ^ 63
  | .record n ks vs => n < 2 ^ 63 ∧ (∀ i, (ks i).Fits) ∧ ∀ i, (vs i).Fits
  | .tag _ v => v.Fits
  | .raw b => ∃ x, parse b = some x
  | _ => True

/-- Every map in the value has at most one entry. -/
def GoVal.OrderFree : GoVal → Prop
  | .list n xs => ∀ i : Fin n, (xs i).OrderFree
  | .map n ks vs => n ≤ 1 ∧ (∀ i, (ks i).OrderFree) ∧ ∀ i, (vs i).OrderFree
  | .record n ks vs => (∀ i : Fin n, (ks i).OrderFree) ∧ ∀ i, (vs i).OrderFree
  | .tag _ v => v.OrderFree
  | _ => True

/-- A number, a string, a truth value or nil. -/
def GoVal.Scalar : GoVal → Prop
  | .list _ _ => False
  | .map _ _ _ => False
  | .record _ _ _ => False
  | .tag _ _ => False
  | .raw _ => False
  | _ => True

/-- A value Go can build: keys of maps are not slices or maps (structs, which Go allows, are left out), and no two keys of a map mean the same (as `int8(1)` and `int16(1)` do in a `map[interface{}]...`). -/
def GoVal.Proper : GoVal → Prop
  | .list n xs => ∀ i : Fin n, (xs i).Proper
  | .map n ks vs => (∀ i, (ks i).Scalar) ∧ (∀ i j : Fin n, i ≠ j → ¬ ∃ x, Represents (ks i) x ∧ Represents (ks j) x) ∧ ∀ i, (vs i).Proper
  | .record n ks vs => (∀ i : Fin n, (ks i).Scalar) ∧ ∀ i, (vs i).Proper
  | .tag _ v => v.Proper
  | _ => True

/-! ## Proofs -/

theorem enc_text (b : Bytes) (hb : b.length < 2 ^ 64) : Enc (encText b) (.text b) := by
  refine ⟨?_, fun f _ rest => ?_⟩
  · have := encHead_length_pos 0x60 (UInt64.ofNat b.length)
    simp [encText]; omega
  obtain ⟨ai, h1, _, h2, _⟩ := readHead_encHead 3 (by omega) (UInt64.ofNat b.length) (b ++ rest)
  rw [ofNat64 _ hb] at h2
  have e : encText b ++ rest = encHead (UInt8.ofNat (3 * 32)) (UInt64.ofNat b.length) ++ (b ++ rest) := by
    simp [encText]
  have : ¬ ai = 31 := by omega
  rw [e]
  unfold readItem readItemWith
  rw [h2]
  simp [this, takeExactly_append]

theorem enc_nint (n : UInt64) : Enc (encHead 0x20 n) (.nint n.toNat) := by
  refine ⟨encHead_length_pos _ _, fun f _ rest => ?_⟩
  obtain ⟨ai, h1, _, h2, _⟩ := readHead_encHead 1 (by omega) n rest
  have h2' : readHead (encHead 0x20 n ++ rest) = some (1, ai, n.toNat, rest) := h2
  have : ¬ ai = 31 := by omega
  simp [readItem, readItemWith, h2', this]

theorem toNat_of_nonneg (m : Int64) (h : 0 ≤ m.toInt) : (m.toUInt64.toNat : Int) = m.toInt := by
  have e : m.toInt = m.toBitVec.toInt := rfl
  have e2 : m.toUInt64.toNat = m.toBitVec.toNat := rfl
  rw [e2, e]
  rw [e, BitVec.toInt_eq_toNat_cond] at h
  rw [BitVec.toInt_eq_toNat_cond]
  split at h
  · rename_i hc; rw [if_pos hc]
  · have := m.toBitVec.isLt; omega

theorem enc_int (n : Int64) : ∃ x, Enc (encInt n) x ∧ IntItem n.toInt x := by
  have hlo := n.le_toInt
  have hhi := n.toInt_lt
  unfold encInt
  split
  · rename_i h
    refine ⟨_, enc_uint _, ?_⟩
    have h : 0 ≤ n.toInt := Int64.le_iff_toInt_le.1 h
    exact (toNat_of_nonneg n h).symm
  · rename_i h
    refine ⟨_, enc_nint _, ?_⟩
    have h : ¬ 0 ≤ n.toInt := fun h' => h (Int64.le_iff_toInt_le.2 h')
    have e : (n * (-1) - 1).toInt = -n.toInt - 1 := by
      rw [Int64.toInt_sub, Int64.toInt_mul]
      have h1 : (-1 : Int64).toInt = -1 := by decide
      have h2 : (1 : Int64).toInt = 1 := by decide
      rw [h1, h2, Int.bmod_sub_bmod, Int.bmod_eq_of_le_mul_two] <;> omega
    show n.toInt = -1 - ((n * (-1) - 1).toUInt64.toNat : Int)
    rw [toNat_of_nonneg _ (by omega), e]; omega

theorem all2_map {ι α β : Type} {R : α → β → Prop} (f : ι → α) (g : ι → β) (h : ∀ i, R (f i) (g i)) (l : List ι) : All2 R (l.map f) (l.map g) := by
  induction l with
  | nil => exact .nil
  | cons i l ih => exact .cons (h i) ih

theorem enc_float (b0 : UInt8) (w n : Nat) (hb : (b0 = 0xf9 ∧ w = 2) ∨ (b0 = 0xfa ∧ w = 4) ∨ (b0 = 0xfb ∧ w = 8)) (hn : n < 256 ^ w) :
    Enc (b0 :: beBytes w n) (.float w n) := by
  refine ⟨by simp, fun f _ rest => ?_⟩
  have hl : ∀ k, (beBytes k n ++ rest).take k = beBytes k n ∧ (beBytes k n ++ rest).drop k = rest := by
    intro k
    have := beBytes_length k n
    constructor
    · rw [List.take_append_of_le_length (by omega), List.take_of_length_le (by omega)]
    · rw [List.drop_append_of_le_length (by omega), List.drop_of_length_le (by omega)]; rfl
  have hv : beVal (beBytes w n) = n := by rw [beVal_beBytes, Nat.mod_eq_of_lt hn]
  have key : ∀ ai, b0.toNat = 224 + ai → 24 < ai → ai < 28 → w = 2 ^ (ai - 24) → readItem f (b0 :: beBytes w n ++ rest) = some (.float w n, rest) := by
    intro ai e1 e2 e3 e4
    have hh : readHead (b0 :: (beBytes w n ++ rest)) = some (7, ai, n, rest) := by
      unfold readHead
      have a1 : b0.toNat / 32 = 7 := by omega
      have a2 : b0.toNat % 32 = ai := by omega
      simp only [a1, a2]
      rw [if_neg (by omega), if_pos e3, ← e4, if_neg (by rw [List.length_append, beBytes_length]; omega), (hl w).1, (hl w).2, hv]
    unfold readItem readItemWith
    rw [List.cons_append, hh]
    simp only
    rw [if_neg (by omega), if_neg (by omega), if_neg (by omega), e4]
  rcases hb with ⟨rfl, rfl⟩ | ⟨rfl, rfl⟩ | ⟨rfl, rfl⟩
  · exact key 25 (by decide) (by omega) (by omega) (by decide)
  · exact key 26 (by decide) (by omega) (by omega) (by decide)
  · exact key 27 (by decide) (by omega) (by omega) (by decide)

theorem enc_nan : Enc encNaN (.float 2 0x7e00) := enc_float 0xf9 2 0x7e00 (.inl ⟨rfl, rfl⟩) (by decide)

theorem enc_inf (neg : Bool) : Enc (encInf neg) (.float 2 (if neg then 0xfc00 else 0x7c00)) := by
  cases neg
  · exact enc_float 0xf9 2 0x7c00 (.inl ⟨rfl, rfl⟩) (by decide)
  · exact enc_float 0xf9 2 0xfc00 (.inl ⟨rfl, rfl⟩) (by decide)

theorem enc_float64 (bits : UInt64) : ∃ x, Enc (encFloat64 bits) x ∧ FloatItem (floatVal 8 bits.toNat) x := by
  have hlt := bits.toNat_lt
  unfold encFloat64
  split
  · rename_i he
    have hv : floatVal 8 bits.toNat = if bits.toNat % 2 ^ 52 = 0 then .inf (bits.toNat / 2 ^ 63 % 2 = 1) else .nan := by
      unfold floatVal
      simp only [show (8 : Nat) ≠ 2 by decide, show (8 : Nat) ≠ 4 by decide, if_false]
      rw [if_pos he]
    rw [hv]
    split
    · rename_i hm
      exact ⟨_, enc_nan, _, _, rfl, .inl rfl, rfl⟩
    · rename_i hm
      rw [if_pos (by omega)]
      refine ⟨_, enc_inf _, _, _, rfl, .inl rfl, ?_⟩
      have h2 : bits.toNat / 2 ^ 63 < 2 := by omega
      rw [Nat.mod_eq_of_lt h2]
      by_cases c : bits.toNat / 2 ^ 63 = 1
      · simp only [c]; rfl
      · simp only [c]; rfl
  · exact ⟨_, enc_float 0xfb 8 _ (.inr (.inr ⟨rfl, rfl⟩)) (by omega), _, _, rfl, .inr (.inr rfl), rfl⟩

theorem enc_float32 (bits : UInt32) : ∃ x, Enc (encFloat32 bits) x ∧ FloatItem (floatVal 4 bits.toNat) x := by
  have hlt := bits.toNat_lt
  unfold encFloat32
  split
  · rename_i he
    have hv : floatVal 4 bits.toNat = if bits.toNat % 2 ^ 23 = 0 then .inf (bits.toNat / 2 ^ 31 % 2 = 1) else .nan := by
      unfold floatVal
      simp only [show (4 : Nat) ≠ 2 by decide, if_false, if_true]
      rw [if_pos he]
    rw [hv]
    split
    · rename_i hm
      exact ⟨_, enc_nan, _, _, rfl, .inl rfl, rfl⟩
    · rename_i hm
      rw [if_pos (by omega)]
      refine ⟨_, enc_inf _, _, _, rfl, .inl rfl, ?_⟩
      have h2 : bits.toNat / 2 ^ 31 < 2 := by omega
      rw [Nat.mod_eq_of_lt h2]
      by_cases c : bits.toNat / 2 ^ 31 = 1
      · simp only [c]; rfl
      · simp only [c]; rfl
  · exact ⟨_, enc_float 0xfa 4 _ (.inr (.inl ⟨rfl, rfl⟩)) (by omega), _, _, rfl, .inr (.inl rfl), rfl⟩

theorem beVal_natBytes (n : Nat) : beVal (natBytes n) = n := by
  induction n using Nat.strongRecOn with
  | ind n ih =>
    rw [natBytes]
    split
    · rename_i h; rw [h]; rfl
    · rename_i h
      have e := ih (n / 256) (by omega)
      show (natBytes (n / 256) ++ [UInt8.ofNat n]).foldl _ 0 = n
      rw [List.foldl_append]
      show beVal (natBytes (n / 256)) * 256 + (UInt8.ofNat n).toNat = n
      rw [e, UInt8.toNat_ofNat']
      omega

theorem enc_big (n : Int) (h1 : (natBytes n.toNat).length < 2 ^ 63) (h2 : (natBytes (-1 - n).toNat).length < 2 ^ 63) : ∃ x, Enc (encBig n) x ∧ BigItem n x := by
  by_cases h : 0 ≤ n
  · by_cases h' : n.toNat < 2 ^ 64
    · have e : encBig n = encUint (UInt64.ofNat n.toNat) := by rw [encBig, if_pos h, if_pos h']; rfl
      rw [e]
      refine ⟨_, enc_uint _, ?_⟩
      unfold BigItem
      rw [if_pos (by omega)]
      show n = _
      rw [ofNat64 _ h']; omega
    · rw [encBig, if_pos h, if_neg h']
      refine ⟨_, enc_tag 2 _ _ (enc_bytes _ (by omega)), ?_⟩
      unfold BigItem
      rw [if_neg (by omega), if_pos h]
      exact ⟨_, rfl, by rw [beVal_natBytes]; omega⟩
  · by_cases h' : (-1 - n).toNat < 2 ^ 64
    · rw [encBig, if_neg h, if_pos h']
      refine ⟨_, enc_nint _, ?_⟩
      unfold BigItem
      rw [if_pos (by omega)]
      show n = -1 - _
      rw [ofNat64 _ h']; omega
    · rw [encBig, if_neg h, if_neg h']
      refine ⟨_, enc_tag 3 _ _ (enc_bytes _ (by omega)), ?_⟩
      unfold BigItem
      rw [if_neg (by omega), if_neg h]
      exact ⟨_, rfl, by rw [beVal_natBytes]; omega⟩

/-- Everything the encoder can return is read back as an item that represents the value. -/
theorem enc_of_encodes (v : GoVal) (b : Bytes) (hv : v.Fits) (h : Marshals v b) : ∃ x, Enc b x ∧ Represents v x := by
  induction h with
  | nil => exact ⟨_, enc_nil, rfl⟩
  | bool b => exact ⟨_, enc_bool b, rfl⟩
  | uint n => exact ⟨_, enc_uint n, rfl⟩
  | int n => exact enc_int n
  | bytes b =>
    have hv : b.length < 2 ^ 63 := hv
    exact ⟨_, enc_bytes b (by omega), rfl⟩
  | text b =>
    have hv : b.length < 2 ^ 63 := hv
    exact ⟨_, enc_text b (by omega), rfl⟩
  | list n xs bs _ ih =>
    have hv : n < 2 ^ 63 ∧ ∀ i, (xs i).Fits := hv
    choose is h1 h2 using fun i => ih i (hv.2 i)
    refine ⟨.array (List.ofFn is), ?_, is, rfl, h2⟩
    refine enc_array _ _ ?_ (by rw [List.length_ofFn]; omega)
    rw [List.ofFn_eq_map, List.ofFn_eq_map]
    exact all2_map _ _ h1 _
  | map n ks vs kb vb order _ _ ho ihk ihv =>
    have hv : n < 2 ^ 63 ∧ (∀ i, (ks i).Fits) ∧ ∀ i, (vs i).Fits := hv
    choose ki k1 k2 using fun i => ihk i (hv.2.1 i)
    choose vi v1 v2 using fun i => ihv i (hv.2.2 i)
    refine ⟨.map (flatPairs (order.map fun i => (ki i, vi i))), ?_, ki, vi, order, ho, rfl, k2, v2⟩
    refine enc_map _ _ (all2_map _ _ (fun i => ⟨k1 i, v1 i⟩) _) ?_
    rw [List.length_map, ho.length_eq, List.length_finRange]; omega
  | float64 bits => exact enc_float64 bits
  | float32 bits => exact enc_float32 bits
  | big n => exact enc_big n hv.1 hv.2
  | record n ks vs kb vb _ _ ihk ihv =>
    have hv : n < 2 ^ 63 ∧ (∀ i, (ks i).Fits) ∧ ∀ i, (vs i).Fits := hv
    choose ki k1 k2 using fun i => ihk i (hv.2.1 i)
    choose vi v1 v2 using fun i => ihv i (hv.2.2 i)
    refine ⟨.map (flatPairs (List.ofFn fun i => (ki i, vi i))), ?_, ki, vi, rfl, k2, v2⟩
    rw [List.ofFn_eq_map, List.ofFn_eq_map]
    refine enc_map _ _ (all2_map _ _ (fun i => ⟨k1 i, v1 i⟩) _) ?_
    rw [List.length_map, List.length_finRange]; omega
  | tag t v b _ ih =>
    obtain ⟨x, h1, h2⟩ := ih hv
    exact ⟨_, enc_tag t b x h1, x, rfl, h2⟩
  | raw b =>
    obtain ⟨x, hx⟩ := hv
    exact ⟨x, enc_of_parse b x hx, hx⟩

/-- The encoder returns something. -/
theorem encodes_exists (v : GoVal) : ∃ b, Marshals v b := by
  induction v with
  | nil => exact ⟨_, .nil⟩
  | bool b => exact ⟨_, .bool b⟩
  | uint n => exact ⟨_, .uint n⟩
  | int n => exact ⟨_, .int n⟩
  | bytes b => exact ⟨_, .bytes b⟩
  | text b => exact ⟨_, .text b⟩
  | list n xs ih =>
    choose bs h using ih
    exact ⟨_, .list n xs bs h⟩
  | map n ks vs ihk ihv =>
    choose kb hk using ihk
    choose vb hv using ihv
    exact ⟨_, .map n ks vs kb vb _ hk hv (List.Perm.refl _)⟩
  | float64 bits => exact ⟨_, .float64 bits⟩
  | float32 bits => exact ⟨_, .float32 bits⟩
  | big n => exact ⟨_, .big n⟩
  | record n ks vs ihk ihv =>
    choose kb hk using ihk
    choose vb hv using ihv
    exact ⟨_, .record n ks vs kb vb hk hv⟩
  | tag t v ih =>
    obtain ⟨b, h⟩ := ih
    exact ⟨_, .tag t v b h⟩
  | raw b => exact ⟨_, .raw b⟩

theorem encArray_length (l : List Bytes) : (encArray l).length = (encHead 0x80 (UInt64.ofNat l.length)).length + (l.map List.length).sum := by
  rw [encArray, List.length_append, List.length_flatten]

theorem encMap_length (l : List (Bytes × Bytes)) : (encMap l).length = (encHead 0xa0 (UInt64.ofNat l.length)).length + (l.map fun kv => kv.1.length + kv.2.length).sum := by
  rw [encMap, List.length_append, List.length_flatten, List.map_map]
  congr 3
  funext kv
  exact List.length_append

/-- Everything the encoder can return has the same length. -/
theorem encodes_length (v : GoVal) (b : Bytes) (h : Marshals v b) : ∀ b', Marshals v b' → b.length = b'.length := by
  induction h with
  | nil => intro b' h'; cases h'; rfl
  | bool b => intro b' h'; cases h'; rfl
  | uint n => intro b' h'; cases h'; rfl
  | int n => intro b' h'; cases h'; rfl
  | bytes b => intro b' h'; cases h'; rfl
  | text b => intro b' h'; cases h'; rfl
  | list n xs bs _ ih =>
    intro b' h'
    cases h' with
    | list _ _ bs' h' =>
      rw [encArray_length, encArray_length, List.length_ofFn, List.length_ofFn, List.ofFn_eq_map, List.ofFn_eq_map, List.map_map, List.map_map]
      congr 3
      funext i
      exact ih i _ (h' i)
  | map n ks vs kb vb order _ _ ho ihk ihv =>
    intro b' h'
    cases h' with
    | map _ _ _ kb' vb' order' hk' hv' ho' =>
      rw [encMap_length, encMap_length, List.length_map, List.length_map, ho.length_eq, ho'.length_eq, List.map_map, List.map_map]
      congr 1
      have e : ((fun kv : Bytes × Bytes => kv.1.length + kv.2.length) ∘ fun i => (kb i, vb i)) = ((fun kv : Bytes × Bytes => kv.1.length + kv.2.length) ∘ fun i => (kb' i, vb' i)) := by
        funext i
        show (kb i).length + (vb i).length = (kb' i).length + (vb' i).length
        rw [ihk i _ (hk' i), ihv i _ (hv' i)]
      rw [e]
      exact ((ho.trans ho'.symm).map _).sum_nat
  | float64 bits => intro b' h'; cases h'; rfl
  | float32 bits => intro b' h'; cases h'; rfl
  | big n => intro b' h'; cases h'; rfl
  | raw b => intro b' h'; cases h'; rfl
  | record n ks vs kb vb _ _ ihk ihv =>
    intro b' h'
    cases h' with
    | record _ _ _ kb' vb' hk' hv' =>
      rw [encMap_length, encMap_length, List.length_ofFn, List.length_ofFn, List.ofFn_eq_map, List.ofFn_eq_map, List.map_map, List.map_map]
      congr 3
      funext i
      show (kb i).length + (vb i).length = (kb' i).length + (vb' i).length
      rw [ihk i _ (hk' i), ihv i _ (hv' i)]
  | tag t v b _ ih =>
    intro b' h'
    cases h' with
    | tag _ _ b' h' =>
      unfold encTag
      rw [List.length_append, List.length_append, ih _ h']

/-- Without maps of several entries the encoder always returns the same. -/
theorem encodes_unique (v : GoVal) (b : Bytes) (hv : v.OrderFree) (h : Marshals v b) : ∀ b', Marshals v b' → b = b' := by
  induction h with
  | nil => intro b' h'; cases h'; rfl
  | bool b => intro b' h'; cases h'; rfl
  | uint n => intro b' h'; cases h'; rfl
  | int n => intro b' h'; cases h'; rfl
  | bytes b => intro b' h'; cases h'; rfl
  | text b => intro b' h'; cases h'; rfl
  | list n xs bs _ ih =>
    intro b' h'
    cases h' with
    | list _ _ bs' h' =>
      congr 2
      funext i
      exact ih i (hv i) _ (h' i)
  | map n ks vs kb vb order _ _ ho ihk ihv =>
    intro b' h'
    have hv : n ≤ 1 ∧ (∀ i, (ks i).OrderFree) ∧ ∀ i, (vs i).OrderFree := hv
    cases h' with
    | map _ _ _ kb' vb' order' hk' hv' ho' =>
      have e : order = order' := by
        have hp := ho.trans ho'.symm
        have hl := ho.length_eq
        rw [List.length_finRange] at hl
        match order, hl, hp with
        | [], _, hp => exact (List.nil_perm.1 hp).symm
        | [a], _, hp => exact (List.singleton_perm.1 hp)
        | a :: c :: l, hl, _ => simp at hl; omega
      have e2 : (fun i => (kb i, vb i)) = fun i => (kb' i, vb' i) := by
        funext i
        rw [ihk i (hv.2.1 i) _ (hk' i), ihv i (hv.2.2 i) _ (hv' i)]
      rw [e, e2]
  | float64 bits => intro b' h'; cases h'; rfl
  | float32 bits => intro b' h'; cases h'; rfl
  | big n => intro b' h'; cases h'; rfl
  | raw b => intro b' h'; cases h'; rfl
  | record n ks vs kb vb _ _ ihk ihv =>
    intro b' h'
    have hv : (∀ i, (ks i).OrderFree) ∧ ∀ i, (vs i).OrderFree := hv
    cases h' with
    | record _ _ _ kb' vb' hk' hv' =>
      congr 2
      funext i
      rw [ihk i (hv.1 i) _ (hk' i), ihv i (hv.2 i) _ (hv' i)]
  | tag t v b _ ih =>
    intro b' h'
    cases h' with
    | tag _ _ b' h' => rw [ih hv _ h']

/-- Two values for one element make two different arrays. -/
theorem flatten_update {n : Nat} (f : Fin n → Bytes) (i : Fin n) (b b' : Bytes) (h : b ≠ b') :
    ((List.finRange n).map (Function.update f i b)).flatten ≠ ((List.finRange n).map (Function.update f i b')).flatten := by
  obtain ⟨l1, l2, e⟩ := List.append_of_mem (List.mem_finRange i)
  have hn := List.nodup_finRange n
  rw [e] at hn ⊢
  rw [List.nodup_append, List.nodup_cons] at hn
  have g : ∀ (l : List (Fin n)) (c : Bytes), i ∉ l → l.map (Function.update f i c) = l.map f := by
    intro l c hl
    apply List.map_congr_left
    intro a ha
    exact Function.update_of_ne (fun (e : a = i) => hl (by rw [← e]; exact ha)) _ _
  have h1 : i ∉ l1 := fun hi => hn.2.2 i hi i (List.mem_cons_self) rfl
  rw [List.map_append, List.map_append, List.map_cons, List.map_cons, g l1 b h1, g l1 b' h1, g l2 b hn.2.1.1, g l2 b' hn.2.1.1, Function.update_self, Function.update_self]
  simp only [List.flatten_append, List.flatten_cons]
  intro e
  exact h (List.append_cancel_right (List.append_cancel_left e))

theorem Scalar.orderFree {v : GoVal} (h : v.Scalar) : v.OrderFree := by
  cases v with
  | list n xs => exact h.elim
  | map n a b => exact h.elim
  | record n a b => exact h.elim
  | tag n b => exact h.elim
  | _ => trivial

/-- With a map of several entries the encoder can return different bytes. -/
theorem encodes_ambiguous (v : GoVal) (hf : v.Fits) (hp : v.Proper) (ho : ¬ v.OrderFree) : ∃ b b', Marshals v b ∧ Marshals v b' ∧ b ≠ b' := by
  induction v with
  | nil => exact absurd trivial ho
  | bool b => exact absurd trivial ho
  | uint n => exact absurd trivial ho
  | int n => exact absurd trivial ho
  | bytes b => exact absurd trivial ho
  | text b => exact absurd trivial ho
  | list n xs ih =>
    have hf : n < 2 ^ 63 ∧ ∀ i, (xs i).Fits := hf
    have ho : ¬ ∀ i : Fin n, (xs i).OrderFree := ho
    obtain ⟨i, hi⟩ := Classical.not_forall.1 ho
    obtain ⟨b, b', h, h', hne⟩ := ih i (hf.2 i) (hp i) hi
    choose bs hbs using fun i => encodes_exists (xs i)
    have hu : ∀ c, Marshals (xs i) c → ∀ j, Marshals (xs j) (Function.update bs i c j) := by
      intro c hc j
      by_cases e : j = i
      · subst e; rw [Function.update_self]; exact hc
      · rw [Function.update_of_ne e]; exact hbs j
    refine ⟨_, _, .list n xs _ (hu b h), .list n xs _ (hu b' h'), ?_⟩
    rw [encArray, encArray, List.length_ofFn, List.length_ofFn, List.ofFn_eq_map, List.ofFn_eq_map]
    intro e
    exact flatten_update bs i b b' hne (List.append_cancel_left e)
  | map n ks vs ihk ihv =>
    have hf : n < 2 ^ 63 ∧ (∀ i, (ks i).Fits) ∧ ∀ i, (vs i).Fits := hf
    have hp : (∀ i, (ks i).Scalar) ∧ (∀ i j : Fin n, i ≠ j → ¬ ∃ x, Represents (ks i) x ∧ Represents (ks j) x) ∧ ∀ i, (vs i).Proper := hp
    have ho : ¬ (n ≤ 1 ∧ (∀ i, (ks i).OrderFree) ∧ ∀ i, (vs i).OrderFree) := ho
    choose kb hkb using fun i => encodes_exists (ks i)
    choose vb hvb using fun i => encodes_exists (vs i)
    by_cases hn : n ≤ 1
    · have hko : ∀ i, (ks i).OrderFree := fun i => Scalar.orderFree (hp.1 i)
      have ho' : ¬ ∀ i, (vs i).OrderFree := fun h => ho ⟨hn, hko, h⟩
      obtain ⟨i, hi⟩ := Classical.not_forall.1 ho'
      obtain ⟨b, b', h, h', hne⟩ := ihv i (hf.2.2 i) (hp.2.2 i) hi
      have hu : ∀ c, Marshals (vs i) c → ∀ j, Marshals (vs j) (Function.update vb i c j) := by
        intro c hc j
        by_cases e : j = i
        · subst e; rw [Function.update_self]; exact hc
        · rw [Function.update_of_ne e]; exact hvb j
      refine ⟨_, _, .map n ks vs kb _ _ hkb (hu b h) (List.Perm.refl _), .map n ks vs kb _ _ hkb (hu b' h') (List.Perm.refl _), ?_⟩
      rw [encMap, encMap, List.length_map, List.length_map, List.map_map, List.map_map]
      intro e
      have e := List.append_cancel_left e
      have upd : ∀ c, ((fun kv : Bytes × Bytes => kv.1 ++ kv.2) ∘ fun j => (kb j, Function.update vb i c j)) = Function.update (fun j => kb j ++ vb j) i (kb i ++ c) := by
        intro c
        funext j
        by_cases e : j = i
        · subst e; simp
        · simp [Function.update_of_ne e]
      rw [upd, upd] at e
      exact flatten_update _ i _ _ (fun e => hne (List.append_cancel_left e)) e
    · -- two orders with different first entries
      have first : ∀ i : Fin n, ∃ l, (i :: l).Perm (List.finRange n) := fun i => ⟨_, (List.perm_cons_erase (List.mem_finRange i)).symm⟩
      let i : Fin n := ⟨0, by omega⟩
      let j : Fin n := ⟨1, by omega⟩
      obtain ⟨l, hl⟩ := first i
      obtain ⟨l', hl'⟩ := first j
      refine ⟨_, _, .map n ks vs kb vb _ hkb hvb hl, .map n ks vs kb vb _ hkb hvb hl', ?_⟩
      rw [encMap, encMap, List.length_map, List.length_map, hl.length_eq, hl'.length_eq]
      intro e
      have e := List.append_cancel_left e
      simp only [List.map_cons, List.flatten_cons, List.append_assoc] at e
      obtain ⟨x, hx, rx⟩ := enc_of_encodes _ _ (hf.2.1 i) (hkb i)
      obtain ⟨y, hy, ry⟩ := enc_of_encodes _ _ (hf.2.1 j) (hkb j)
      have := (hx.inj hy _ _ e).1
      subst this
      exact hp.2.1 i j (by intro e; exact absurd (congrArg Fin.val e) (by show ¬ 0 = 1; omega)) ⟨x, rx, ry⟩
  | float64 bits => exact absurd trivial ho
  | float32 bits => exact absurd trivial ho
  | big n => exact absurd trivial ho
  | raw b => exact absurd trivial ho
  | tag t v ih =>
    obtain ⟨b, b', h, h', hne⟩ := ih hf hp ho
    exact ⟨_, _, .tag t v b h, .tag t v b' h', fun e => hne (List.append_cancel_left e)⟩
  | record n ks vs ihk ihv =>
    have hf : n < 2 ^ 63 ∧ (∀ i, (ks i).Fits) ∧ ∀ i, (vs i).Fits := hf
    have hp : (∀ i, (ks i).Scalar) ∧ ∀ i, (vs i).Proper := hp
    have ho : ¬ ((∀ i, (ks i).OrderFree) ∧ ∀ i, (vs i).OrderFree) := ho
    choose kb hkb using fun i => encodes_exists (ks i)
    choose vb hvb using fun i => encodes_exists (vs i)
    have ho' : ¬ ∀ i, (vs i).OrderFree := fun h => ho ⟨fun i => Scalar.orderFree (hp.1 i), h⟩
    obtain ⟨i, hi⟩ := Classical.not_forall.1 ho'
    obtain ⟨b, b', h, h', hne⟩ := ihv i (hf.2.2 i) (hp.2 i) hi
    have hu : ∀ c, Marshals (vs i) c → ∀ j, Marshals (vs j) (Function.update vb i c j) := by
      intro c hc j
      by_cases e : j = i
      · subst e; rw [Function.update_self]; exact hc
      · rw [Function.update_of_ne e]; exact hvb j
    refine ⟨_, _, .record n ks vs kb _ hkb (hu b h), .record n ks vs kb _ hkb (hu b' h'), ?_⟩
    rw [encMap, encMap, List.length_ofFn, List.length_ofFn, List.ofFn_eq_map, List.ofFn_eq_map, List.map_map, List.map_map]
    intro e
    have e := List.append_cancel_left e
    have upd : ∀ c, ((fun kv : Bytes × Bytes => kv.1 ++ kv.2) ∘ fun j => (kb j, Function.update vb i c j)) = Function.update (fun j => kb j ++ vb j) i (kb i ++ c) := by
      intro c
      funext j
      by_cases e : j = i
      · subst e; simp
      · simp [Function.update_of_ne e]
    rw [upd, upd] at e
    exact flatten_update _ i _ _ (fun e => hne (List.append_cancel_left e)) e

end Cardano.Cbor
