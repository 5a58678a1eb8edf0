import Verif.Cbor.Lemmas
/-!
# Deterministic CBOR (RFC 8949, 4.2.1)

A second encoder, written from the RFC alone: heads as short as possible, definite lengths, map entries sorted by their encoded keys. The hardware wallets demand this form (CIP-21).
-/
set_option autoImplicit false

namespace Cardano.Cbor

/-- `n` in `k` bytes, most significant first. -/
def bigEndian (k n : Nat) : Bytes := ((List.range k).map fun i => UInt8.ofNat (n / 256 ^ i % 256)).reverse

/-- Major type and argument, the argument in the first form that holds it (3: additional information 0 to 23, then 24 to 27 for 1, 2, 4 and 8 bytes). -/
def shortHead (major n : Nat) : Bytes :=
  if n < 24 then [UInt8.ofNat (32 * major + n)]
  else
    let e := if n < 2 ^ 8 then 0 else if n < 2 ^ 16 then 1 else if n < 2 ^ 32 then 2 else 3
    UInt8.ofNat (32 * major + 24 + e) :: bigEndian (2 ^ e) n

/-- Bytewise lexicographic order. -/
def lexLE : Bytes → Bytes → Bool
  | [], _ => true
  | _ :: _, [] => false
  | a :: as, b :: bs => if a = b then lexLE as bs else decide (a.toNat < b.toNat)

/-- The list key, value, key, value, ... as pairs. -/
def pairUp : List Bytes → List (Bytes × Bytes)
  | k :: v :: l => (k, v) :: pairUp l
  | _ => []

/-- Insertion into a list of entries that is sorted by the keys. -/
def insertEntry (p : Bytes × Bytes) : List (Bytes × Bytes) → List (Bytes × Bytes)
  | [] => [p]
  | q :: l => if lexLE p.1 q.1 then p :: q :: l else q :: insertEntry p l

/-- The entries sorted by their keys. -/
def sortEntries (l : List (Bytes × Bytes)) : List (Bytes × Bytes) := l.foldr insertEntry []

mutual
/-- The deterministic encoding. (Floats keep their width: the reader of `Spec.lean` tells the widths apart.) -/
def canon : Item → Bytes
  | .uint n => shortHead 0 n
  | .nint n => shortHead 1 n
  | .bytes b => shortHead 2 b.length ++ b
  | .text b => shortHead 3 b.length ++ b
  | .array xs => shortHead 4 xs.length ++ (canonAll xs).flatten
  | .map kvs => shortHead 5 (kvs.length / 2) ++
      ((sortEntries (pairUp (canonAll kvs))).map fun p => p.1 ++ p.2).flatten
  | .tag n x => shortHead 6 n ++ canon x
  | .simple n => if n < 24 then [UInt8.ofNat (224 + n)] else [248, UInt8.ofNat n]
  | .float w bits => UInt8.ofNat (224 + 24 + Nat.log2 w) :: bigEndian w bits
/-- The deterministic encodings of the items of a list. -/
def canonAll : List Item → List Bytes
  | [] => []
  | x :: xs => canon x :: canonAll xs
end

/-! ## Proofs -/

theorem bigEndian_eq (k n : Nat) : bigEndian k n = beBytes k n := by
  induction k with
  | zero => rfl
  | succ k ih =>
    unfold bigEndian at ih ⊢
    rw [List.range_succ, List.map_append, List.reverse_append, ih]
    show [UInt8.ofNat (n / 256 ^ k % 256)] ++ _ = UInt8.ofNat (n / 256 ^ k) :: _
    rw [List.singleton_append]
    congr 1
    apply UInt8.toNat_inj.1
    simp

/-- No head with the same meaning is shorter. -/
theorem shortHead_least (major n ai : Nat) (h : Bytes) (hr : readHead h = some (major, ai, n, [])) :
    (shortHead major n).length ≤ h.length ∧ ∃ ai', readHead (shortHead major n) = some (major, ai', n, []) := by
  cases h with
  | nil => cases hr
  | cons b bs =>
    unfold readHead at hr
    dsimp only at hr
    have hb := UInt8.toNat_lt b
    have hlen : ∀ e : Nat, (UInt8.ofNat (32 * major + 24 + e) :: bigEndian (2 ^ e) n).length = 1 + 2 ^ e := by
      intro e; rw [List.length_cons, bigEndian_eq, beBytes_length]; omega
    have hread : ∀ e : Nat, e < 4 → major < 8 → n < 256 ^ (2 ^ e) → readHead (UInt8.ofNat (32 * major + 24 + e) :: bigEndian (2 ^ e) n) = some (major, 24 + e, n, []) := by
      intro e he hm hn
      unfold readHead
      dsimp only
      have : (UInt8.ofNat (32 * major + 24 + e)).toNat = 32 * major + 24 + e := by rw [UInt8.toNat_ofNat']; omega
      rw [this, if_neg (by omega), if_pos (by omega)]
      have e1 : (32 * major + 24 + e) % 32 - 24 = e := by omega
      have e2 : (bigEndian (2 ^ e) n).length = 2 ^ e := by rw [bigEndian_eq, beBytes_length]
      rw [e1, if_neg (by omega), List.take_of_length_le (by omega), List.drop_of_length_le (by omega), bigEndian_eq, beVal_beBytes, Nat.mod_eq_of_lt hn]
      have : (32 * major + 24 + e) / 32 = major := by omega
      have : (32 * major + 24 + e) % 32 = 24 + e := by omega
      simp [*]
    have hcase : ∀ e, e < 4 → n < 256 ^ (2 ^ e) → major < 8 → 1 + 2 ^ e ≤ (b :: bs).length → ¬ n < 24 →
        (e = if n < 2 ^ 8 then 0 else if n < 2 ^ 16 then 1 else if n < 2 ^ 32 then 2 else 3) →
        (shortHead major n).length ≤ (b :: bs).length ∧ ∃ ai', readHead (shortHead major n) = some (major, ai', n, []) := by
      intro e he hn hm hl h24 hee
      unfold shortHead
      rw [if_neg h24]
      dsimp only
      rw [← hee, hlen]
      exact ⟨hl, _, hread e he hm hn⟩
    by_cases h24 : n < 24
    · have hm : major < 8 := by
        repeat' split at hr
        all_goals first
          | (cases hr; done)
          | (injection hr with hr; simp only [Prod.mk.injEq] at hr; omega)
      unfold shortHead
      rw [if_pos h24]
      refine ⟨by simp, n, ?_⟩
      unfold readHead
      dsimp only
      have : (UInt8.ofNat (32 * major + n)).toNat = 32 * major + n := by rw [UInt8.toNat_ofNat']; omega
      rw [this, if_pos (by omega)]
      have : (32 * major + n) / 32 = major := by omega
      have : (32 * major + n) % 32 = n := by omega
      simp [*]
    · split at hr
      · injection hr with hr; simp only [Prod.mk.injEq] at hr; omega
      · split at hr
        · rename_i h1 h2
          split at hr
          · cases hr
          · rename_i h3
            injection hr with hr
            simp only [Prod.mk.injEq] at hr
            obtain ⟨r1, r2, r3, r4⟩ := hr
            have hl : bs.length = 2 ^ (b.toNat % 32 - 24) := by
              have := congrArg List.length r4
              rw [List.length_drop] at this
              simp at this
              omega
            rw [List.take_of_length_le (by omega)] at r3
            have hv := beVal_lt bs
            rw [r3, hl] at hv
            have hm : major < 8 := by omega
            have he : b.toNat % 32 - 24 < 4 := by omega
            generalize b.toNat % 32 - 24 = e at hl hv he
            have hbl : (b :: bs).length = 1 + 2 ^ e := by rw [List.length_cons, hl]; omega
            have h4 : e = 0 ∨ e = 1 ∨ e = 2 ∨ e = 3 := by omega
            rcases h4 with rfl | rfl | rfl | rfl
            all_goals
              by_cases c1 : n < 2 ^ 8
              · exact hcase 0 (by omega) c1 hm (by rw [hbl]; decide) h24 (by rw [if_pos c1])
              by_cases c2 : n < 2 ^ 16
              · first
                  | exact hcase 1 (by omega) c2 hm (by rw [hbl]; decide) h24 (by rw [if_neg c1, if_pos c2])
                  | exact absurd hv c1
              by_cases c3 : n < 2 ^ 32
              · first
                  | exact hcase 2 (by omega) c3 hm (by rw [hbl]; decide) h24 (by rw [if_neg c1, if_neg c2, if_pos c3])
                  | exact absurd hv c1
                  | exact absurd hv c2
              first
                | exact hcase 3 (by omega) hv hm (by rw [hbl]; exact Nat.le_refl _) h24 (by rw [if_neg c1, if_neg c2, if_neg c3])
                | exact absurd hv c1
                | exact absurd hv c2
                | exact absurd hv c3
        · split at hr
          · injection hr with hr; simp only [Prod.mk.injEq] at hr; omega
          · cases hr

theorem encHead_short (m : Nat) (hm : m < 8) (n : UInt64) : encHead (UInt8.ofNat (m * 32)) n = shortHead m n.toNat := by
  have hn := UInt64.toNat_lt n
  have key : ∀ a : Nat, a < 32 → (UInt8.ofNat (m * 32) ||| UInt8.ofNat a) = UInt8.ofNat (32 * m + a) := by
    have : ∀ m, m < 8 → ∀ a, a < 32 → (UInt8.ofNat (m * 32) ||| UInt8.ofNat a) = UInt8.ofNat (32 * m + a) := by decide
    exact this m hm
  unfold encHead shortHead
  split
  · rename_i h
    rw [key _ (by omega)]
  · dsimp only
    repeat' split
    · show (_ ||| UInt8.ofNat 24) :: _ = _
      rw [key _ (by omega), bigEndian_eq]
    · show (_ ||| UInt8.ofNat 25) :: _ = _
      rw [key _ (by omega), bigEndian_eq]
    · show (_ ||| UInt8.ofNat 26) :: _ = _
      rw [key _ (by omega), bigEndian_eq]
    · show (_ ||| UInt8.ofNat 27) :: _ = _
      rw [key _ (by omega), bigEndian_eq]

end Cardano.Cbor
