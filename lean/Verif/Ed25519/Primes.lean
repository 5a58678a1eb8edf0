import Mathlib.NumberTheory.LucasPrimality
import Mathlib.Tactic.NormNum.Prime
import Mathlib.Data.ZMod.Basic
/-!
# The field characteristic and the group order are prime

Pratt certificates, evaluated in the kernel.
-/
set_option autoImplicit false

namespace Cardano.Ed

/-- `a ^ n % m`, given `n < 2 ^ fuel`. -/
def powMod (m : Nat) : Nat → Nat → Nat → Nat
  | 0, _, _ => 1 % m
  | fuel + 1, a, n =>
    let r := powMod m fuel (a * a % m) (n / 2)
    if n % 2 = 1 then r * a % m else r

theorem powMod_eq (m : Nat) : ∀ (fuel a n : Nat), n < 2 ^ fuel → powMod m fuel a n = a ^ n % m
  | 0, a, n, h => by
    have : n = 0 := by simpa using h
    subst this
    rfl
  | fuel + 1, a, n, h => by
    have ih := powMod_eq m fuel (a * a % m) (n / 2) (by rw [pow_succ] at h; omega)
    simp only [powMod, ih]
    have e : a ^ (2 * (n / 2)) = (a * a) ^ (n / 2) := by rw [pow_mul, sq]
    rw [← Nat.pow_mod]
    split
    · rename_i h1
      have hn : n = 2 * (n / 2) + 1 := by omega
      conv_rhs => rw [hn, pow_succ, e]
      rw [Nat.mod_mul_mod]
    · rename_i h1
      have hn : n = 2 * (n / 2) := by omega
      conv_rhs => rw [hn, e]

theorem prime_mem {q : Nat} (hq : q.Prime) : ∀ {l : List Nat}, (∀ r ∈ l, r.Prime) → q ∣ l.prod → q ∈ l
  | [], _, h => absurd (Nat.dvd_one.1 (by simpa using h)) hq.one_lt.ne'
  | r :: l, hl, h => by
    rw [List.prod_cons, hq.dvd_mul] at h
    rcases h with h | h
    · have := (Nat.prime_dvd_prime_iff_eq hq (hl r (by simp))).1 h
      simp [this]
    · exact List.mem_cons_of_mem _ (prime_mem hq (fun r hr => hl r (List.mem_cons_of_mem _ hr)) h)

theorem natCast_powMod (m a n : Nat) (h : n < 2 ^ 256) : ((a : ZMod m)) ^ n = (powMod m 256 a n : ZMod m) := by
  rw [powMod_eq m 256 a n h, ← Nat.cast_pow, ZMod.natCast_mod]

/-- The checks of a Pratt certificate: `a` is a generator, `fs` the prime factors of `p - 1`. -/
def prattOk (p a : Nat) (fs : List Nat) : Bool :=
  decide (1 < p) && decide (p < 2 ^ 256) && decide (fs.prod = p - 1) && decide (powMod p 256 a (p - 1) = 1) &&
    fs.all (fun q => decide (powMod p 256 a ((p - 1) / q) ≠ 1) && decide (powMod p 256 a ((p - 1) / q) < p))

theorem pratt {p a : Nat} {fs : List Nat} (h : prattOk p a fs = true) (hfs : ∀ q ∈ fs, q.Prime) : p.Prime := by
  simp only [prattOk, Bool.and_eq_true, decide_eq_true_eq, List.all_eq_true] at h
  obtain ⟨⟨⟨⟨h1, h2⟩, hprod⟩, hone⟩, hall⟩ := h
  have lt : ∀ k, (p - 1) / k < 2 ^ 256 := fun k => by
    have := Nat.div_le_self (p - 1) k
    omega
  refine lucas_primality p (a : ZMod p) ?_ ?_
  · rw [natCast_powMod p a (p - 1) (by omega), hone, Nat.cast_one]
  · intro q hq hd
    rw [← hprod] at hd
    obtain ⟨hne, hlt⟩ := hall q (prime_mem hq hfs hd)
    rw [natCast_powMod p a _ (lt q)]
    intro he
    have := (ZMod.natCast_eq_natCast_iff' (powMod p 256 a ((p - 1) / q)) 1 p).1 (by rw [he, Nat.cast_one])
    rw [Nat.mod_eq_of_lt hlt, Nat.mod_eq_of_lt h1] at this
    exact hne this

theorem prime_0 : Nat.Prime 1923133 := by
  refine pratt (a := 2) (fs := [2, 2, 3, 43, 3727]) (by decide +kernel) ?_
  intro q hq
  simp only [List.mem_cons, List.not_mem_nil, or_false] at hq
  rcases hq with rfl | rfl | rfl | rfl | rfl
  · norm_num
  · norm_num
  · norm_num
  · norm_num
  · norm_num

theorem prime_1 : Nat.Prime 31757755568855353 := by
  refine pratt (a := 10) (fs := [2, 2, 2, 3, 31, 107, 223, 4153, 430751]) (by decide +kernel) ?_
  intro q hq
  simp only [List.mem_cons, List.not_mem_nil, or_false] at hq
  rcases hq with rfl | rfl | rfl | rfl | rfl | rfl | rfl | rfl | rfl
  · norm_num
  · norm_num
  · norm_num
  · norm_num
  · norm_num
  · norm_num
  · norm_num
  · norm_num
  · norm_num

theorem prime_2 : Nat.Prime 2773320623 := by
  refine pratt (a := 5) (fs := [2, 2437, 569003]) (by decide +kernel) ?_
  intro q hq
  simp only [List.mem_cons, List.not_mem_nil, or_false] at hq
  rcases hq with rfl | rfl | rfl
  · norm_num
  · norm_num
  · norm_num

theorem prime_3 : Nat.Prime 72106336199 := by
  refine pratt (a := 7) (fs := [2, 13, 2773320623]) (by decide +kernel) ?_
  intro q hq
  simp only [List.mem_cons, List.not_mem_nil, or_false] at hq
  rcases hq with rfl | rfl | rfl
  · norm_num
  · norm_num
  · exact prime_2

theorem prime_4 : Nat.Prime 8574133 := by
  refine pratt (a := 2) (fs := [2, 2, 3, 7, 103, 991]) (by decide +kernel) ?_
  intro q hq
  simp only [List.mem_cons, List.not_mem_nil, or_false] at hq
  rcases hq with rfl | rfl | rfl | rfl | rfl | rfl
  · norm_num
  · norm_num
  · norm_num
  · norm_num
  · norm_num
  · norm_num

theorem prime_5 : Nat.Prime 1919519569386763 := by
  refine pratt (a := 2) (fs := [2, 3, 7, 19, 47, 47, 127, 8574133]) (by decide +kernel) ?_
  intro q hq
  simp only [List.mem_cons, List.not_mem_nil, or_false] at hq
  rcases hq with rfl | rfl | rfl | rfl | rfl | rfl | rfl | rfl
  · norm_num
  · norm_num
  · norm_num
  · norm_num
  · norm_num
  · norm_num
  · norm_num
  · exact prime_4

theorem prime_6 : Nat.Prime 75445702479781427272750846543864801 := by
  refine pratt (a := 7) (fs := [2, 2, 2, 2, 2, 3, 3, 5, 5, 75707, 72106336199, 1919519569386763]) (by decide +kernel) ?_
  intro q hq
  simp only [List.mem_cons, List.not_mem_nil, or_false] at hq
  rcases hq with rfl | rfl | rfl | rfl | rfl | rfl | rfl | rfl | rfl | rfl | rfl | rfl
  · norm_num
  · norm_num
  · norm_num
  · norm_num
  · norm_num
  · norm_num
  · norm_num
  · norm_num
  · norm_num
  · norm_num
  · exact prime_3
  · exact prime_5

theorem prime_7 : Nat.Prime 74058212732561358302231226437062788676166966415465897661863160754340907 := by
  refine pratt (a := 2) (fs := [2, 3, 353, 57467, 132049, 1923133, 31757755568855353, 75445702479781427272750846543864801]) (by decide +kernel) ?_
  intro q hq
  simp only [List.mem_cons, List.not_mem_nil, or_false] at hq
  rcases hq with rfl | rfl | rfl | rfl | rfl | rfl | rfl | rfl
  · norm_num
  · norm_num
  · norm_num
  · norm_num
  · norm_num
  · exact prime_0
  · exact prime_1
  · exact prime_6

theorem prime_p : Nat.Prime 57896044618658097711785492504343953926634992332820282019728792003956564819949 := by
  refine pratt (a := 2) (fs := [2, 2, 3, 65147, 74058212732561358302231226437062788676166966415465897661863160754340907]) (by decide +kernel) ?_
  intro q hq
  simp only [List.mem_cons, List.not_mem_nil, or_false] at hq
  rcases hq with rfl | rfl | rfl | rfl | rfl
  · norm_num
  · norm_num
  · norm_num
  · norm_num
  · exact prime_7

theorem prime_9 : Nat.Prime 14741173 := by
  refine pratt (a := 2) (fs := [2, 2, 3, 3, 409477]) (by decide +kernel) ?_
  intro q hq
  simp only [List.mem_cons, List.not_mem_nil, or_false] at hq
  rcases hq with rfl | rfl | rfl | rfl | rfl
  · norm_num
  · norm_num
  · norm_num
  · norm_num
  · norm_num

theorem prime_10 : Nat.Prime 58964693 := by
  refine pratt (a := 2) (fs := [2, 2, 14741173]) (by decide +kernel) ?_
  intro q hq
  simp only [List.mem_cons, List.not_mem_nil, or_false] at hq
  rcases hq with rfl | rfl | rfl
  · norm_num
  · norm_num
  · exact prime_9

theorem prime_11 : Nat.Prime 3044861653679985063343 := by
  refine pratt (a := 5) (fs := [2, 3, 11, 30703, 82163, 132667, 137849]) (by decide +kernel) ?_
  intro q hq
  simp only [List.mem_cons, List.not_mem_nil, or_false] at hq
  rcases hq with rfl | rfl | rfl | rfl | rfl | rfl | rfl
  · norm_num
  · norm_num
  · norm_num
  · norm_num
  · norm_num
  · norm_num
  · norm_num

theorem prime_12 : Nat.Prime 198211423230930754013084525763697 := by
  refine pratt (a := 5) (fs := [2, 2, 2, 2, 3, 23, 58964693, 3044861653679985063343]) (by decide +kernel) ?_
  intro q hq
  simp only [List.mem_cons, List.not_mem_nil, or_false] at hq
  rcases hq with rfl | rfl | rfl | rfl | rfl | rfl | rfl | rfl
  · norm_num
  · norm_num
  · norm_num
  · norm_num
  · norm_num
  · norm_num
  · exact prime_10
  · exact prime_11

theorem prime_13 : Nat.Prime 292386187 := by
  refine pratt (a := 2) (fs := [2, 3, 3, 3, 3, 307, 5879]) (by decide +kernel) ?_
  intro q hq
  simp only [List.mem_cons, List.not_mem_nil, or_false] at hq
  rcases hq with rfl | rfl | rfl | rfl | rfl | rfl | rfl
  · norm_num
  · norm_num
  · norm_num
  · norm_num
  · norm_num
  · norm_num
  · norm_num

theorem prime_14 : Nat.Prime 213441916511 := by
  refine pratt (a := 13) (fs := [2, 5, 73, 292386187]) (by decide +kernel) ?_
  intro q hq
  simp only [List.mem_cons, List.not_mem_nil, or_false] at hq
  rcases hq with rfl | rfl | rfl | rfl
  · norm_num
  · norm_num
  · norm_num
  · exact prime_13

theorem prime_15 : Nat.Prime 1224481 := by
  refine pratt (a := 13) (fs := [2, 2, 2, 2, 2, 3, 5, 2551]) (by decide +kernel) ?_
  intro q hq
  simp only [List.mem_cons, List.not_mem_nil, or_false] at hq
  rcases hq with rfl | rfl | rfl | rfl | rfl | rfl | rfl | rfl
  · norm_num
  · norm_num
  · norm_num
  · norm_num
  · norm_num
  · norm_num
  · norm_num
  · norm_num

theorem prime_16 : Nat.Prime 1257559732178653 := by
  refine pratt (a := 2) (fs := [2, 2, 3, 7, 23, 531581, 1224481]) (by decide +kernel) ?_
  intro q hq
  simp only [List.mem_cons, List.not_mem_nil, or_false] at hq
  rcases hq with rfl | rfl | rfl | rfl | rfl | rfl | rfl
  · norm_num
  · norm_num
  · norm_num
  · norm_num
  · norm_num
  · norm_num
  · exact prime_15

theorem prime_17 : Nat.Prime 4434155615661930479 := by
  refine pratt (a := 17) (fs := [2, 41, 43, 1257559732178653]) (by decide +kernel) ?_
  intro q hq
  simp only [List.mem_cons, List.not_mem_nil, or_false] at hq
  rcases hq with rfl | rfl | rfl | rfl
  · norm_num
  · norm_num
  · norm_num
  · exact prime_16

theorem prime_18 : Nat.Prime 172054593956031949258510691 := by
  refine pratt (a := 2) (fs := [2, 5, 1361, 2851, 4434155615661930479]) (by decide +kernel) ?_
  intro q hq
  simp only [List.mem_cons, List.not_mem_nil, or_false] at hq
  rcases hq with rfl | rfl | rfl | rfl | rfl
  · norm_num
  · norm_num
  · norm_num
  · norm_num
  · exact prime_17

theorem prime_19 : Nat.Prime 19757330305831588566944191468367130476339 := by
  refine pratt (a := 2) (fs := [2, 269, 213441916511, 172054593956031949258510691]) (by decide +kernel) ?_
  intro q hq
  simp only [List.mem_cons, List.not_mem_nil, or_false] at hq
  rcases hq with rfl | rfl | rfl | rfl
  · norm_num
  · norm_num
  · exact prime_14
  · exact prime_18

theorem prime_20 : Nat.Prime 276602624281642239937218680557139826668747 := by
  refine pratt (a := 2) (fs := [2, 7, 19757330305831588566944191468367130476339]) (by decide +kernel) ?_
  intro q hq
  simp only [List.mem_cons, List.not_mem_nil, or_false] at hq
  rcases hq with rfl | rfl | rfl
  · norm_num
  · norm_num
  · exact prime_19

theorem prime_l : Nat.Prime 7237005577332262213973186563042994240857116359379907606001950938285454250989 := by
  refine pratt (a := 2) (fs := [2, 2, 3, 11, 198211423230930754013084525763697, 276602624281642239937218680557139826668747]) (by decide +kernel) ?_
  intro q hq
  simp only [List.mem_cons, List.not_mem_nil, or_false] at hq
  rcases hq with rfl | rfl | rfl | rfl | rfl | rfl
  · norm_num
  · norm_num
  · norm_num
  · norm_num
  · exact prime_12
  · exact prime_20

end Cardano.Ed
