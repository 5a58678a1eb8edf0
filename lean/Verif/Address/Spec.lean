import Verif.Address.Model
/-!
# Specification vocabulary for addresses

Independent of the functions of the model: number formats and well-formedness only.
-/
set_option autoImplicit false

namespace Cardano.Spec

/-- The number denoted by base-128 digits, most significant first (only the low seven bits of each byte count). -/
def val128 (b : Bytes) : Nat := b.foldl (fun a x => a * 128 + x.toNat % 128) 0

/-- A variable-length natural: every byte but the last has its top bit set. -/
def IsVlq (b : Bytes) : Prop := ∃ i l, b = i ++ [l] ∧ (∀ x ∈ i, 128 ≤ x.toNat) ∧ l.toNat < 128

/-- Minimal: no shorter byte string denotes the same number. -/
def MinimalVlq (b : Bytes) : Prop := IsVlq b ∧ ∀ b', IsVlq b' → val128 b' = val128 b → b.length ≤ b'.length

/-- Value of a hexadecimal digit, by position in the two digit strings. -/
def hexVal (c : UInt8) : Option Nat :=
  match (asc ['0','1','2','3','4','5','6','7','8','9','a','b','c','d','e','f']).findIdx? (· == c) with
  | some i => some i
  | none => (asc ['0','1','2','3','4','5','6','7','8','9','A','B','C','D','E','F']).findIdx? (· == c)

/-- `s` writes the bytes `b` in hexadecimal, digits in any case. -/
inductive IsHexOf : Bytes → Bytes → Prop
  | nil : IsHexOf [] []
  | cons {c d x : UInt8} {i j : Nat} {s b : Bytes} (hc : hexVal c = some i) (hd : hexVal d = some j)
      (hx : x.toNat = 16 * i + j) (h : IsHexOf s b) : IsHexOf (c :: d :: s) (x :: b)

/-- A 28-byte key or script hash. -/
def CredOk (c : Cred) : Prop := (c.kind = 0 ∨ c.kind = 1) ∧ c.payload.length = 28

/-- One of the two networks of the library. -/
def NetOk (n : NetworkInfo) : Prop := n = MainNet ∨ n = TestNet

/-- Well-formed Shelley-era address: known network, credentials are 28-byte key or script hashes. -/
def ShelleyOk : Address → Prop
  | .base n p s => NetOk n ∧ CredOk p ∧ CredOk s
  | .enterprise n p => NetOk n ∧ CredOk p
  | .pointer n p _ => NetOk n ∧ CredOk p
  | .reward n s => NetOk n ∧ CredOk s
  | .byron _ => False

/-- Well-formed Byron address: 28-byte root hash, type tag 0 (the payload can be any Go slice, hence below 2^63 bytes). -/
def ByronOk (b : ByronAddress) : Prop := b.hash.length = 28 ∧ b.tag = 0 ∧ b.attributes.payload.length < 2 ^ 63

end Cardano.Spec
