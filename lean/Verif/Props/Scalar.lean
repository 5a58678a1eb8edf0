import Verif.Ed25519.ScalarProof
/-!
# Properties C38, C53: arithmetic modulo the group order
-/
set_option autoImplicit false

namespace Cardano.Props
open Ed

/-- The order of the base point in decimal, as published (RFC 8032, section 5.1). -/
def L : Nat := 7237005577332262213973186563042994240857116359379907606001950938285454250989

theorem L_eq : groupOrder = L := by decide +kernel

/-- A fully reduced 32-byte little-endian scalar with value `v` modulo `L`. -/
structure ReducedTo (b : Bytes) (v : Nat) : Prop where
  size : b.length = 32
  value : leNat b = v % L

/-! ### C38 -/

/-- **C38** (`ScReduce`). Every 64-byte string is reduced to the 32-byte little-endian encoding of its value modulo `L`. -/
theorem C38_reduce (s : Bytes) (h : s.length = 64) : ReducedTo (ScReduce s) (leNat s) :=
  ⟨ScReduce_length s, L_eq ▸ ScReduce_eq h⟩

/-- **C38** (`ScMulAdd`). For all 32-byte strings, reduced or not, the result is `a*b + c` modulo `L`, fully reduced. -/
theorem C38_mulAdd (a b c : Bytes) (ha : a.length = 32) (hb : b.length = 32) (hc : c.length = 32) :
    ReducedTo (ScMulAdd a b c) (leNat a * leNat b + leNat c) :=
  ⟨ScMulAdd_length a b c, L_eq ▸ ScMulAdd_eq ha hb hc⟩

/-- The largest inputs: the values are not reached by any literal computation in the theorems. -/
example : leNat (ScReduce (List.replicate 64 0xff)) = (2 ^ 512 - 1) % L := by
  rw [(C38_reduce _ (by decide)).value]; decide +kernel
example : leNat (ScMulAdd (List.replicate 32 0xff) (List.replicate 32 0xff) (List.replicate 32 0xff)) = (2 ^ 256 * (2 ^ 256 - 1)) % L := by
  rw [(C38_mulAdd _ _ _ (by decide) (by decide) (by decide)).value]; decide +kernel
/-- The same by running the model. -/
example : leNat (ScReduce (List.replicate 64 0xff)) = (2 ^ 512 - 1) % L := by decide +kernel

/-! ### C53 -/

/-- **C53**. `ScMinimal` holds exactly of the encodings of numbers below `L`. -/
theorem C53_minimal (s : Bytes) (h : s.length = 32) : ScMinimal s = true ↔ leNat s < L := L_eq ▸ ScMinimal_iff h

/-- Reduced scalars, and only those, pass. -/
theorem C53_reduced_passes (s : Bytes) (h : s.length = 64) : ScMinimal (ScReduce s) = true := by
  rw [C53_minimal _ (ScReduce_length s), (C38_reduce s h).value]
  exact Nat.mod_lt _ (by decide)

/-- The boundary: `L - 1` passes, `L` does not. -/
example : ScMinimal (leBytes 32 (L - 1)) = true ∧ ScMinimal (leBytes 32 L) = false := by decide +kernel

end Cardano.Props
