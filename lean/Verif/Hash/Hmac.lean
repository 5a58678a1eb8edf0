import Verif.Bip32.Keys
import Verif.Hash.Sha512
import Verif.Hash.Sha256
/-!
# HMAC-SHA-512 (RFC 2104) and PBKDF2 (RFC 8018)

The library calls `crypto/hmac` and `golang.org/x/crypto/pbkdf2`, which are not part of the repository.
-/
set_option autoImplicit false

namespace Cardano.Hash

/-- RFC 2104 with SHA-512: keys longer than a block are hashed, shorter ones are filled up with zeros. -/
def hmac512 (key msg : Bytes) : Bytes :=
  let key := if key.length > 128 then Sha512.hash key else key
  let key := key ++ List.replicate (128 - key.length) 0
  Sha512.hash (key.map (· ^^^ 0x5c) ++ Sha512.hash (key.map (· ^^^ 0x36) ++ msg))

theorem hmac512_length (key msg : Bytes) : (hmac512 key msg).length = 64 := Sha512.hash_length _

/-- `n` further iterations: the last value `u` and the sum `t` so far. -/
def iterate (password : Bytes) : Nat → Bytes → Bytes → Bytes
  | 0, _, t => t
  | n + 1, u, t =>
    let u := hmac512 password u
    iterate password n u (List.zipWith (· ^^^ ·) t u)

/-- RFC 8018, 5.2, the function `F`; `i` is the number of the block (below 256 here). -/
def pbkdf2Block (password salt : Bytes) (c : Nat) (i : UInt8) : Bytes :=
  let u := hmac512 password (salt ++ [0, 0, 0, i])
  iterate password (c - 1) u u

/-- `pbkdf2.Key(password, salt, 4096, 96, sha512.New)`: two blocks, the second one cut. -/
def pbkdf2 (password salt : Bytes) : Bytes := (pbkdf2Block password salt 4096 1 ++ pbkdf2Block password salt 4096 2).take 96

theorem iterate_length (password : Bytes) : ∀ (n : Nat) (u t : Bytes), t.length = 64 → (iterate password n u t).length = 64
  | 0, _, _, h => h
  | n + 1, u, t, h => by
    rw [iterate]
    exact iterate_length password n _ _ (by simp [hmac512_length, h])

theorem pbkdf2_length (password salt : Bytes) : (pbkdf2 password salt).length = 96 := by
  have h : ∀ c i, (pbkdf2Block password salt c i).length = 64 := fun c i => iterate_length _ _ _ _ (hmac512_length _ _)
  rw [pbkdf2, List.length_take, List.length_append, h, h]; rfl

/-- The hash functions the package uses. -/
def real : Hashes := ⟨Sha512.hash, Sha256.hash, hmac512, pbkdf2⟩

attribute [local irreducible] pbkdf2 in
theorem real_ok : real.Ok := ⟨Sha512.hash_length, Sha256.hash_length, hmac512_length, pbkdf2_length⟩

end Cardano.Hash
