/-!
# Go run-time vocabulary used by the model

Nothing here models a file of `/repo`; it is the small part of the Go language semantics the model needs.
-/
set_option autoImplicit false

namespace Cardano

/-- A byte slice seen as a value (its `len` visible bytes). Go strings are byte strings too. -/
abbrev Bytes := List UInt8

/-- Outcome of a Go call: normal return, an `error` return (with its message), or a run-time panic. -/
inductive Res (α : Type) where
  | ok (a : α)
  | err (msg : String)
  | panic
  deriving Repr, DecidableEq

namespace Res
variable {α β : Type}

/-- Go's `if err != nil { return err }` chaining; a panic propagates. -/
def bind : Res α → (α → Res β) → Res β
  | ok a, f => f a
  | err m, _ => err m
  | panic, _ => panic

instance : Monad Res where
  pure := ok
  bind := bind

def isOk : Res α → Bool
  | ok _ => true
  | _ => false

def isErr : Res α → Bool
  | err _ => true
  | _ => false

@[simp] theorem pure_eq (a : α) : (pure a : Res α) = ok a := rfl
@[simp] theorem ok_bind (a : α) (f : α → Res β) : (ok a >>= f) = f a := rfl
@[simp] theorem err_bind (m : String) (f : α → Res β) : ((err m : Res α) >>= f) = err m := rfl
@[simp] theorem panic_bind (f : α → Res β) : ((panic : Res α) >>= f) = panic := rfl

end Res

/-- Go `x >> k` on `byte`: a shift count of 8 or more gives 0 (Lean's `>>>` would reduce the count mod 8). -/
def goShr8 (x : UInt8) (k : Nat) : UInt8 := if k < 8 then x >>> UInt8.ofNat k else 0
/-- Go `x << k` on `byte`. -/
def goShl8 (x : UInt8) (k : Nat) : UInt8 := if k < 8 then x <<< UInt8.ofNat k else 0
/-- Go `x >> k` on `uint32`. -/
def goShr32 (x : UInt32) (k : Nat) : UInt32 := if k < 32 then x >>> UInt32.ofNat k else 0
/-- Go `x << k` on `uint32`. -/
def goShl32 (x : UInt32) (k : Nat) : UInt32 := if k < 32 then x <<< UInt32.ofNat k else 0

theorem goShr8_toNat (x : UInt8) (k : Nat) : (goShr8 x k).toNat = x.toNat / 2 ^ k := by
  unfold goShr8
  split
  · rename_i h
    rw [UInt8.toNat_shiftRight, UInt8.toNat_ofNat', Nat.mod_eq_of_lt (by omega : k < 256),
      Nat.mod_eq_of_lt h, Nat.shiftRight_eq_div_pow]
  · rename_i h
    have : x.toNat < 2 ^ k := Nat.lt_of_lt_of_le (UInt8.toNat_lt x) (Nat.pow_le_pow_right (by omega) (by omega))
    simp [Nat.div_eq_of_lt this]

theorem goShr32_toNat (x : UInt32) (k : Nat) : (goShr32 x k).toNat = x.toNat / 2 ^ k := by
  unfold goShr32
  split
  · rename_i h
    rw [UInt32.toNat_shiftRight, UInt32.toNat_ofNat', Nat.mod_eq_of_lt (by omega : k < 2^32),
      Nat.mod_eq_of_lt h, Nat.shiftRight_eq_div_pow]
  · rename_i h
    have : x.toNat < 2 ^ k := Nat.lt_of_lt_of_le (UInt32.toNat_lt x) (Nat.pow_le_pow_right (by omega) (by omega))
    simp [Nat.div_eq_of_lt this]

theorem goShl32_toNat (x : UInt32) (k : Nat) : (goShl32 x k).toNat = x.toNat * 2 ^ k % 2 ^ 32 := by
  unfold goShl32
  split
  · rename_i h
    rw [UInt32.toNat_shiftLeft, UInt32.toNat_ofNat', Nat.mod_eq_of_lt (by omega : k < 2^32),
      Nat.mod_eq_of_lt h, Nat.shiftLeft_eq]
  · rename_i h
    have h2 : x.toNat * 2 ^ k = 2 ^ 32 * (x.toNat * 2 ^ (k - 32)) := by
      have : (2:Nat) ^ k = 2 ^ 32 * 2 ^ (k - 32) := by rw [← Nat.pow_add]; congr 1; omega
      rw [this]; ac_rfl
    rw [h2]; simp

theorem goShl8_toNat (x : UInt8) (k : Nat) : (goShl8 x k).toNat = x.toNat * 2 ^ k % 2 ^ 8 := by
  unfold goShl8
  split
  · rename_i h
    rw [UInt8.toNat_shiftLeft, UInt8.toNat_ofNat', Nat.mod_eq_of_lt (by omega : k < 256),
      Nat.mod_eq_of_lt h, Nat.shiftLeft_eq]
  · rename_i h
    have h2 : x.toNat * 2 ^ k = 2 ^ 8 * (x.toNat * 2 ^ (k - 8)) := by
      have : (2:Nat) ^ k = 2 ^ 8 * 2 ^ (k - 8) := by rw [← Nat.pow_add]; congr 1; omega
      rw [this]; ac_rfl
    rw [h2]; simp

/-- A statement about every byte can be checked on the 256 byte values. -/
theorem forall_byte {p : UInt8 → Prop} (h : ∀ n : Fin 256, p (UInt8.ofNat n.val)) (b : UInt8) : p b := by
  have := h ⟨b.toNat, UInt8.toNat_lt b⟩
  simpa using this

/-- Bytes of an ASCII string given by its characters, for readable constants. -/
def asc (cs : List Char) : Bytes := cs.map fun c => UInt8.ofNat c.toNat

/-- `strings.ToLower` on one ASCII byte. -/
def lower8 (c : UInt8) : UInt8 := if 65 ≤ c ∧ c ≤ 90 then c + 32 else c
/-- `strings.ToUpper` on one ASCII byte. -/
def upper8 (c : UInt8) : UInt8 := if 97 ≤ c ∧ c ≤ 122 then c - 32 else c
/-- `strings.ToLower`, restricted to its effect on ASCII bytes (other bytes are left alone). -/
def toLower (s : Bytes) : Bytes := s.map lower8
/-- `strings.ToUpper`, restricted to its effect on ASCII bytes. -/
def toUpper (s : Bytes) : Bytes := s.map upper8

end Cardano
