import Verif.Cbor.Lemmas
/-!
# Model of `github.com/btcsuite/btcutil/base58` v1.0.2 (external; called at address/address.go:38, address/byron.go:36)

`big.Int` arithmetic is arithmetic on `Nat`.
-/
set_option autoImplicit false

namespace Cardano.Base58
open Cbor (beVal)

/-- base58 `alphabet`. -/
def alphabet : Bytes := asc
  ['1','2','3','4','5','6','7','8','9','A','B','C','D','E','F','G','H','J','K','L','M','N','P','Q','R','S','T','U','V',
   'W','X','Y','Z','a','b','c','d','e','f','g','h','i','j','k','m','n','o','p','q','r','s','t','u','v','w','x','y','z']

/-- Base-`b` digits of `n`, most significant first, no leading zero. `fuel > n` suffices. -/
def digits (b : Nat) : Nat → Nat → List Nat
  | 0, _ => []
  | f + 1, n => if n = 0 then [] else digits b f (n / b) ++ [n % b]

/-- `big.Int.Bytes()`: minimal big-endian bytes. -/
def natBytes (n : Nat) : Bytes := (digits 256 (n + 1) n).map UInt8.ofNat

/-- Number of leading elements equal to `z`. -/
def leading (z : UInt8) : Bytes → Nat
  | [] => 0
  | x :: xs => if x = z then leading z xs + 1 else 0

/-- `base58.Encode`: base-58 digits of the number, preceded by a '1' for every leading zero byte. -/
def encode (b : Bytes) : Bytes :=
  List.replicate (leading 0 b) 49 ++ (digits 58 (beVal b + 1) (beVal b)).map fun d => alphabet.getD d 0

/-- `b58[c]`: index in the alphabet, `none` for 255. -/
def index (c : UInt8) : Option Nat := alphabet.findIdx? (· == c)

/-- The number denoted by a base-58 string, `none` if some character is not in the alphabet. -/
def value : Bytes → Nat → Option Nat
  | [], acc => some acc
  | c :: cs, acc => match index c with
    | none => none
    | some d => value cs (acc * 58 + d)

/-- `base58.Decode`: the empty slice if some character is invalid. -/
def decode (s : Bytes) : Bytes :=
  match value s 0 with
  | none => []
  | some n => List.replicate (leading 49 s) 0 ++ natBytes n

/-! ### Lemmas -/

theorem digits_lt (b : Nat) (hb : 0 < b) (f : Nat) : ∀ n, ∀ d ∈ digits b f n, d < b := by
  induction f with
  | zero => intro n d h; simp [digits] at h
  | succ f ih =>
    intro n d h
    simp only [digits] at h
    split at h
    · simp at h
    · rcases List.mem_append.1 h with h | h
      · exact ih _ d h
      · simp only [List.mem_singleton] at h; rw [h]; exact Nat.mod_lt _ hb

theorem digits_val (b : Nat) (hb : 1 < b) (f : Nat) : ∀ n, n < f → (digits b f n).foldl (fun a d => a * b + d) 0 = n := by
  induction f with
  | zero => intro n h; omega
  | succ f ih =>
    intro n h
    simp only [digits]
    split
    · rename_i h0; simp [h0]
    · rename_i h0
      rw [List.foldl_append]
      have : n / b < n := Nat.div_lt_self (by omega) hb
      rw [ih (n / b) (by omega)]
      simp only [List.foldl_cons, List.foldl_nil]
      rw [Nat.mul_comm]; exact Nat.div_add_mod n b

/-- The digits are determined: fuel does not matter, and a nonzero leading digit makes any digit list canonical. -/
theorem digits_canon (b : Nat) (hb : 1 < b) (l : List Nat) : ∀ (f n : Nat), (∀ d ∈ l, d < b) → (∀ d t, l = d :: t → d ≠ 0) →
    l.foldl (fun a d => a * b + d) 0 = n → n < f → digits b f n = l := by
  induction hk : l.length generalizing l with
  | zero =>
    intro f n _ _ hv hf
    have : l = [] := List.length_eq_zero_iff.1 hk
    subst this
    match f, hf with
    | f + 1, _ => simp at hv; subst hv; simp [digits]
  | succ k ih =>
    intro f n hlt hlead hv hf
    have hne : l ≠ [] := by intro h; rw [h] at hk; simp at hk
    obtain ⟨init, last, rfl⟩ : ∃ init last, l = init ++ [last] := ⟨l.dropLast, l.getLast hne, (List.dropLast_concat_getLast hne).symm⟩
    rw [List.foldl_append] at hv
    simp only [List.foldl_cons, List.foldl_nil] at hv
    have hlast : last < b := hlt last (by simp)
    match f, hf with
    | f + 1, hf =>
      have hd : n / b = init.foldl (fun a d => a * b + d) 0 := by
        rw [← hv, Nat.mul_comm, Nat.mul_add_div (by omega), Nat.div_eq_of_lt hlast]; rfl
      have hm : n % b = last := by
        rw [← hv, Nat.mul_comm, Nat.mul_add_mod, Nat.mod_eq_of_lt hlast]
      have hn0 : n ≠ 0 := by
        cases init with
        | nil =>
          simp at hv
          have := hlead last [] (by simp)
          omega
        | cons d t =>
          have h1 := hlead d (t ++ [last]) (by simp)
          have pos : ∀ (t : List Nat) (a : Nat), 0 < a → 0 < t.foldl (fun a d => a * b + d) a := by
            intro t
            induction t with
            | nil => intro a h; exact h
            | cons x t ih2 => intro a h; exact ih2 _ (Nat.lt_of_lt_of_le (Nat.mul_pos h (show 0 < b by omega)) (Nat.le_add_right _ _))
          have := pos t (0 * b + d) (by omega)
          have h3 : 0 < (d :: t).foldl (fun a d => a * b + d) 0 := this
          rw [← hd] at h3
          intro h0; rw [h0] at h3; simp at h3
      simp only [digits, hn0, if_false]
      rw [hm]
      congr 1
      apply ih init (by simpa using hk) f (n / b) (fun d hd => hlt d (by simp [hd]))
        (fun d t e => hlead d (t ++ [last]) (by simp [e])) hd.symm
      have : n / b < n := Nat.div_lt_self (by omega) hb
      omega

theorem natBytes_beVal (b : Bytes) (h : ∀ x t, b = x :: t → x ≠ 0) : natBytes (beVal b) = b := by
  unfold natBytes
  have hv : (b.map UInt8.toNat).foldl (fun a d => a * 256 + d) 0 = beVal b := by
    rw [List.foldl_map]; rfl
  rw [digits_canon 256 (by omega) (b.map UInt8.toNat) _ _ ?_ ?_ hv (by omega)]
  · rw [List.map_map]
    conv => rhs; rw [← List.map_id b]
    congr 1; funext x; simp
  · intro d hd
    obtain ⟨x, _, rfl⟩ := List.mem_map.1 hd
    exact UInt8.toNat_lt x
  · intro d t e
    cases b with
    | nil => simp at e
    | cons x r =>
      simp only [List.map_cons, List.cons.injEq] at e
      have := h x r rfl
      intro hd
      apply this
      apply UInt8.toNat_inj.1
      rw [e.1, hd]; rfl

theorem leading_split (z : UInt8) (b : Bytes) : ∃ t, b = List.replicate (leading z b) z ++ t ∧ ∀ x r, t = x :: r → x ≠ z := by
  induction b with
  | nil => exact ⟨[], rfl, by simp⟩
  | cons x b ih =>
    obtain ⟨t, e, h⟩ := ih
    by_cases hx : x = z
    · refine ⟨t, ?_, h⟩
      subst hx
      simp only [leading, if_true, List.replicate_succ, List.cons_append]
      rw [← e]
    · refine ⟨x :: b, by simp [leading, hx], ?_⟩
      intro y r e2 hy; cases e2; exact hx hy

theorem beVal_zeros (k : Nat) (t : Bytes) : beVal (List.replicate k 0 ++ t) = beVal t := by
  induction k with
  | zero => rfl
  | succ k ih =>
    rw [List.replicate_succ, List.cons_append, Cbor.beVal_cons, ih]; simp

theorem leading_append (z : UInt8) (k : Nat) (t : Bytes) (h : ∀ x r, t = x :: r → x ≠ z) :
    leading z (List.replicate k z ++ t) = k := by
  induction k with
  | zero =>
    cases t with
    | nil => rfl
    | cons x r => simp [leading, h x r rfl]
  | succ k ih => simp [List.replicate_succ, leading, ih]

theorem index_alphabet (d : Nat) (h : d < 58) : index (alphabet.getD d 0) = some d := by
  have : ∀ d : Fin 58, index (alphabet.getD d.val 0) = some d.val := by decide +kernel
  exact this ⟨d, h⟩

theorem value_digits (l : List Nat) (h : ∀ d ∈ l, d < 58) : ∀ acc,
    value (l.map fun d => alphabet.getD d 0) acc = some (l.foldl (fun a d => a * 58 + d) acc) := by
  induction l with
  | nil => intro acc; rfl
  | cons d l ih =>
    intro acc
    simp only [List.map_cons, value, List.foldl_cons]
    rw [index_alphabet d (h d List.mem_cons_self)]
    exact ih (fun x hx => h x (List.mem_cons_of_mem _ hx)) _

theorem value_ones (k : Nat) (s : Bytes) : value (List.replicate k 49 ++ s) 0 = value s 0 := by
  induction k with
  | zero => rfl
  | succ k ih =>
    rw [List.replicate_succ, List.cons_append]
    have : index 49 = some 0 := by decide
    simp only [value, this]
    exact ih

theorem digits_lead (b : Nat) (hb : 1 < b) (f : Nat) : ∀ n, n < f → ∀ d t, digits b f n = d :: t → d ≠ 0 := by
  induction f with
  | zero => intro n h; omega
  | succ f ih =>
    intro n hn d t h
    simp only [digits] at h
    split at h
    · cases h
    · rename_i h0
      have hlt : n / b < n := Nat.div_lt_self (by omega) hb
      cases hd : digits b f (n / b) with
      | nil =>
        rw [hd] at h
        simp only [List.nil_append, List.cons.injEq] at h
        have hv := digits_val b hb f (n / b) (by omega)
        rw [hd] at hv
        simp at hv
        have : n / b = 0 := by omega
        rw [← h.1]
        have := Nat.div_add_mod n b
        intro hz
        rw [hz] at this
        rw [‹n / b = 0›] at this
        simp at this
        omega
      | cons d' t' =>
        rw [hd] at h
        simp only [List.cons_append, List.cons.injEq] at h
        rw [← h.1]
        exact ih (n / b) (by omega) d' t' hd

/-- Base-58 round trip for every byte string. -/
theorem decode_encode (b : Bytes) : decode (encode b) = b := by
  obtain ⟨t, e, hlead⟩ := leading_split 0 b
  unfold encode
  have hval : value (List.replicate (leading 0 b) 49 ++ (digits 58 (beVal b + 1) (beVal b)).map fun d => alphabet.getD d 0) 0
      = some (beVal b) := by
    rw [value_ones, value_digits _ (digits_lt 58 (by omega) _ _), digits_val 58 (by omega) _ _ (by omega)]
  have hne : ∀ x r, (digits 58 (beVal b + 1) (beVal b)).map (fun d => alphabet.getD d 0) = x :: r → x ≠ 49 := by
    intro x r hx
    cases hd : digits 58 (beVal b + 1) (beVal b) with
    | nil => rw [hd] at hx; simp at hx
    | cons d ds =>
      rw [hd] at hx
      simp only [List.map_cons, List.cons.injEq] at hx
      have h1 := digits_lead 58 (by omega) _ _ (by omega) d ds hd
      have h2 : d < 58 := digits_lt 58 (by omega) _ _ d (by rw [hd]; simp)
      intro h49
      have h3 := index_alphabet d h2
      rw [hx.1, h49] at h3
      have : index 49 = some 0 := by decide
      rw [this] at h3
      cases h3; exact h1 rfl
  unfold decode
  rw [hval]
  simp only []
  rw [leading_append 49 _ _ hne]
  conv => rhs; rw [e]
  congr 1
  rw [e, beVal_zeros]
  exact natBytes_beVal t hlead

end Cardano.Base58
