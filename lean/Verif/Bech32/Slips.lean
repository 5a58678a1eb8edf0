import Verif.Bech32.Detect
/-! # One wrong character in the human-readable part: helper lemmas -/
set_option autoImplicit false

namespace Cardano.Bech32
open Cardano.Spec

/-- The four prefixes of CIP-5 that addresses have. -/
def addressPrefixes : List Bytes :=
  [asc ['a','d','d','r'], asc ['a','d','d','r','_','t','e','s','t'], asc ['s','t','a','k','e'], asc ['s','t','a','k','e','_','t','e','s','t']]

/-- `polymod` and `hrpExpand` (of a lower-case text) on natural numbers, for evaluation by the kernel. -/
def stateN (t : List Nat) : Nat := (t.map (· / 32) ++ 0 :: t.map (· % 32)).foldl (fun c v => linN c ^^^ v) 1

theorem state_eq (t : Bytes) (h : toLower t = t) : (polymod (hrpExpand t)).toNat = stateN (t.map UInt8.toNat) := by
  have key : ∀ (l : Bytes) (c : UInt32), (l.foldl polymodStep c).toNat = (l.map UInt8.toNat).foldl (fun c v => linN c ^^^ v) c.toNat := by
    intro l
    induction l with
    | nil => intro c; rfl
    | cons v l ih =>
      intro c
      simp only [List.foldl_cons, List.map_cons]
      rw [ih, step_eq, UInt32.toNat_xor, lin_toNat]
      simp
  unfold polymod hrpExpand stateN
  rw [h, key]
  have e : List.map UInt8.toNat (t.map (fun c => goShr8 c 5) ++ [0] ++ t.map (fun c => c &&& 31)) =
      (t.map UInt8.toNat).map (· / 32) ++ 0 :: (t.map UInt8.toNat).map (· % 32) := by
    simp only [List.map_append, List.map_map, List.append_assoc, List.map_cons, List.singleton_append]
    have h1 : ∀ c : UInt8, (goShr8 c 5).toNat = c.toNat / 32 := fun c => goShr8_toNat c 5
    have h2 : ∀ c : UInt8, (c &&& 31).toNat = c.toNat % 32 := forall_byte (by decide +kernel)
    congr 1
    · exact List.map_congr_left fun c _ => h1 c
    · congr 1
      exact List.map_congr_left fun c _ => h2 c
  simp only [] at e ⊢
  rw [e]; rfl

/-- The characters 33 to 126 without capitals. -/
def prefixChars : List Nat := (List.range 127).filter fun y => 33 ≤ y && !(65 ≤ y && y ≤ 90)

/-- No slip (with a character that is allowed in a lower-case prefix) leads to the same checksum state. -/
def slipsOk (p : List Nat) : Bool :=
  (List.range (p.length + 1)).all fun i =>
    prefixChars.all (fun y => stateN (p.take i ++ y :: p.drop i) != stateN p) &&
    prefixChars.all (fun y => p[i]? == some y || p.length ≤ i || stateN (p.take i ++ y :: p.drop (i + 1)) != stateN p) &&
    (p.length ≤ i || stateN (p.take i ++ p.drop (i + 1)) != stateN p) &&
    (p.length ≤ i + 1 || p[i]? == p[i + 1]? || stateN (p.take i ++ p.getD (i + 1) 0 :: p.getD i 0 :: p.drop (i + 2)) != stateN p)

theorem slips_ok : ∀ p ∈ addressPrefixes, slipsOk (p.map UInt8.toNat) = true := by decide +kernel

end Cardano.Bech32
