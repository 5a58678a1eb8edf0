import Verif.Go.Basic
/-!
# An RFC 8949 (CBOR) reader

Written from the RFC alone (sections 3 and 3.2); it does not mention the encoder. It reads one data item from the front
of a byte string. It is used in two ways: as the specification of the transaction format, and as the first stage of
the model of `cbor.Unmarshal` (Byron addresses).
-/
set_option autoImplicit false

namespace Cardano.Cbor

/-- RFC 8949 data items. A map is the flat list key, value, key, value, ... in the order of the bytes. -/
inductive Item where
  | uint (n : Nat)
  /-- the negative integer `-1 - n` -/
  | nint (n : Nat)
  | bytes (b : Bytes)
  | text (b : Bytes)
  | array (xs : List Item)
  | map (kvs : List Item)
  | tag (n : Nat) (x : Item)
  /-- simple values: 20 false, 21 true, 22 null, 23 undefined -/
  | simple (n : Nat)
  /-- a float of `w` bytes, given by its bits -/
  | float (w : Nat) (bits : Nat)
  deriving Repr

/-- Big-endian value of a byte string. -/
def beVal (b : Bytes) : Nat := b.foldl (fun a x => a * 256 + x.toNat) 0

/-- The initial byte and its argument (RFC 8949 section 3): major type, additional information, argument, rest. -/
def readHead : Bytes → Option (Nat × Nat × Nat × Bytes)
  | [] => none
  | b :: bs =>
    let major := b.toNat / 32
    let ai := b.toNat % 32
    if ai < 24 then some (major, ai, ai, bs)
    else if ai < 28 then
      let k := 2 ^ (ai - 24)
      if bs.length < k then none else some (major, ai, beVal (bs.take k), bs.drop k)
    else if ai = 31 then some (major, ai, 0, bs)
    else none

/-- `n` bytes from the front. -/
def takeExactly (n : Nat) (bs : Bytes) : Option (Bytes × Bytes) :=
  if bs.length < n then none else some (bs.take n, bs.drop n)

/-- The chunks of an indefinite-length string of the given major type, up to the "break" byte. -/
def readChunks (major : Nat) : Nat → Bytes → Option (Bytes × Bytes)
  | 0, _ => none
  | f + 1, bs =>
    match bs with
    | 0xff :: rest => some ([], rest)
    | _ =>
      match readHead bs with
      | none => none
      | some (m, ai, n, r) =>
        if m ≠ major ∨ ai = 31 then none
        else match takeExactly n r with
          | none => none
          | some (chunk, r) =>
            match readChunks major f r with
            | none => none
            | some (more, r) => some (chunk ++ more, r)

/-- One item, given a reader `many` for the items inside it (`some n`: exactly `n` items; `none`: up to "break");
`f` bounds the number of chunks of an indefinite-length string. -/
def readItemWith (f : Nat) (many : Option Nat → Bytes → Option (List Item × Bytes)) (bs : Bytes) : Option (Item × Bytes) :=
  match readHead bs with
  | none => none
  | some (major, ai, n, r) =>
    let indef := ai = 31
    match major with
    | 0 => if indef then none else some (.uint n, r)
    | 1 => if indef then none else some (.nint n, r)
    | 2 => (if indef then readChunks 2 f r else takeExactly n r).map fun (b, r) => (.bytes b, r)
    | 3 => (if indef then readChunks 3 f r else takeExactly n r).map fun (b, r) => (.text b, r)
    | 4 => (many (if indef then none else some n) r).map fun (xs, r) => (.array xs, r)
    | 5 => (many (if indef then none else some (2 * n)) r).bind fun (xs, r) =>
        if xs.length % 2 = 0 then some (.map xs, r) else none
    | 6 => if indef then none else
        (many (some 1) r).bind fun (xs, r) => match xs with
          | [x] => some (.tag n x, r)
          | _ => none
    | _ => if indef then none
        else if ai < 24 then some (.simple n, r)
        else if ai = 24 then (if n < 32 then none else some (.simple n, r))
        else some (.float (2 ^ (ai - 24)) n, r)

/-- Several items; the first argument bounds the work. -/
def readMany : Nat → Option Nat → Bytes → Option (List Item × Bytes)
  | 0, _, _ => none
  | _ + 1, some 0, bs => some ([], bs)
  | f + 1, some (n + 1), bs =>
    match readItemWith f (readMany f) bs with
    | none => none
    | some (x, r) =>
      match readMany f (some n) r with
      | none => none
      | some (xs, r) => some (x :: xs, r)
  | f + 1, none, bs =>
    match bs with
    | 0xff :: rest => some ([], rest)
    | _ =>
      match readItemWith f (readMany f) bs with
      | none => none
      | some (x, r) =>
        match readMany f none r with
        | none => none
        | some (xs, r) => some (x :: xs, r)

/-- One item with work bound `f`. -/
def readItem (f : Nat) (bs : Bytes) : Option (Item × Bytes) := readItemWith f (readMany f) bs

/-- The first item of a byte string and the bytes after it. -/
def parseFirst (bs : Bytes) : Option (Item × Bytes) := readItem bs.length bs

/-- The byte string is exactly one item. -/
def parse (bs : Bytes) : Option Item :=
  match parseFirst bs with
  | some (x, []) => some x
  | _ => none

end Cardano.Cbor
