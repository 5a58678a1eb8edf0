import Verif.Go.Basic
/-!
# Specification vocabulary for bech32: bit strings and GF(32)

Independent of the model in `Bech32/Model.lean`: nothing here mentions accumulators, `polymod` or checksums.
-/
set_option autoImplicit false

namespace Cardano.Spec

/-- The `w` lowest bits of `n`, most significant first. -/
def bitsOf : Nat → Nat → List Bool
  | 0, _ => []
  | w + 1, n => n.testBit w :: bitsOf w n

/-- Concatenation of the `w`-bit groups of a byte list, each most significant bit first. -/
def bitStream (w : Nat) (xs : Bytes) : List Bool := xs.flatMap fun x => bitsOf w x.toNat

/-! ## GF(32) as in BIP-173: polynomials over GF(2) modulo `x^5 + x^3 + 1`, written as 5-bit numbers. -/

/-- Multiplication by `x` in GF(32): shift left, and subtract the modulus `0b101001` if bit 5 appears. -/
def gfX (a : Nat) : Nat := if a ≥ 16 then (2 * a) ^^^ 41 else 2 * a

/-- Product in GF(32), the second factor given by its low `k` bits (Horner's rule). -/
def gfMulAux (a b : Nat) : Nat → Nat
  | 0 => 0
  | k + 1 => (if b.testBit k then (Nat.repeat gfX k a) else 0) ^^^ gfMulAux a b k

/-- Product in GF(32). -/
def gfMul (a b : Nat) : Nat := gfMulAux a b 5

/-- Division by the generator polynomial of BIP-173,
`g(x) = x^6 + {29}x^5 + {22}x^4 + {20}x^3 + {21}x^2 + {29}x + {18}` over GF(32).
`gRem r cs` is the remainder (six coefficients, highest degree first) after the coefficients `cs` are appended to the
polynomial with remainder `r`: long division, one coefficient at a time. -/
def gStep (r : Fin 6 → Nat) (c : Nat) : Fin 6 → Nat := fun i =>
  let t := r 0
  match i with
  | 0 => r 1 ^^^ gfMul t 29
  | 1 => r 2 ^^^ gfMul t 22
  | 2 => r 3 ^^^ gfMul t 20
  | 3 => r 4 ^^^ gfMul t 21
  | 4 => r 5 ^^^ gfMul t 29
  | 5 => c ^^^ gfMul t 18

/-- Remainder modulo `g` of the polynomial with coefficients `cs`, highest degree first. -/
def gRem (cs : List Nat) : Fin 6 → Nat := cs.foldl gStep (fun _ => 0)

end Cardano.Spec
