import Verif.Ed25519.ScalarMultProof
/-!
# Sliding windows and `GeDoubleScalarMultVartime`
-/
set_option autoImplicit false

namespace Cardano.Ed
open Curve

/-- The number with the given signed digits, base 2. -/
def bval : List Int → Int
  | [] => 0
  | e :: es => e + 2 * bval es

theorem bval_append : ∀ (a b : List Int), bval (a ++ b) = bval a + 2 ^ a.length * bval b
  | [], b => by simp [bval]
  | x :: a, b => by
    simp only [List.cons_append, bval, bval_append a b, List.length_cons, pow_succ]
    ring

/-- Binary digits. -/
def Bits (t : List Int) : Prop := ∀ x ∈ t, x = 0 ∨ x = 1

theorem Bits.cons {x : Int} {t : List Int} (h : Bits (x :: t)) : (x = 0 ∨ x = 1) ∧ Bits t :=
  ⟨h x (by simp), fun y hy => h y (by simp [hy])⟩

theorem Bits.mk {x : Int} {t : List Int} (h : x = 0 ∨ x = 1) (ht : Bits t) : Bits (x :: t) := by
  intro y hy
  rcases List.mem_cons.1 hy with rfl | hy
  · exact h
  · exact ht y hy

theorem Bits.zeros {n : Nat} {t : List Int} (ht : Bits t) : Bits (List.replicate n 0 ++ t) := by
  intro y hy
  rcases List.mem_append.1 hy with hy | hy
  · left; exact List.eq_of_mem_replicate hy
  · exact ht y hy

theorem bval_zeros (n : Nat) (t : List Int) : bval (List.replicate n 0 ++ t) = 2 ^ n * bval t := by
  rw [bval_append, List.length_replicate]
  have : bval (List.replicate n 0) = 0 := by
    induction n with
    | zero => rfl
    | succ n ih => simp [List.replicate_succ, bval, ih]
  rw [this, zero_add]

theorem Bits.nonneg : ∀ {t : List Int}, Bits t → 0 ≤ bval t
  | [], _ => by simp [bval]
  | x :: t, h => by
    have := Bits.nonneg h.cons.2
    rcases h.cons.1 with rfl | rfl <;> simp only [bval] <;> omega

/-! ## Lists with a marked position -/

theorem lget_append (a : List Int) (x : Int) (b : List Int) : lget (a ++ x :: b) a.length = x := by
  unfold lget
  rw [List.getD_eq_getElem?_getD, List.getElem?_append_right (by omega), Nat.sub_self]; rfl

theorem set_append (a : List Int) (x : Int) (b : List Int) (y : Int) : (a ++ x :: b).set a.length y = a ++ y :: b := by
  rw [List.set_append_right _ _ (by omega), Nat.sub_self]; rfl

/-- Addition of one. -/
def inc : List Int → List Int
  | [] => []
  | x :: t => if x = 0 then 1 :: t else 0 :: inc t

theorem slideCarry_eq : ∀ (t pre : List Int), slideCarry t.length (pre ++ t) pre.length = pre ++ inc t
  | [], pre => by simp [slideCarry, inc]
  | x :: t, pre => by
    simp only [List.length_cons, slideCarry, lget_append, inc, set_append]
    split
    · rfl
    · have := slideCarry_eq t (pre ++ [0])
      simp only [List.length_append, List.length_cons, List.length_nil, Nat.zero_add, List.append_assoc, List.singleton_append] at this
      exact this

theorem inc_length : ∀ t : List Int, (inc t).length = t.length
  | [] => rfl
  | x :: t => by
    simp only [inc]
    split
    · rfl
    · simp [inc_length t]

theorem inc_spec : ∀ {t : List Int}, Bits t → bval t + 1 < 2 ^ t.length → Bits (inc t) ∧ bval (inc t) = bval t + 1
  | [], _, h => by simp [bval] at h
  | x :: t, hb, h => by
    have := hb.cons.2.nonneg
    rcases hb.cons.1 with rfl | rfl
    · simp only [inc, if_pos, bval] at *
      exact ⟨Bits.mk (Or.inr rfl) hb.cons.2, by omega⟩
    · simp only [inc, bval, if_neg one_ne_zero, List.length_cons, pow_succ] at *
      obtain ⟨i1, i2⟩ := inc_spec hb.cons.2 (by omega)
      exact ⟨Bits.mk (Or.inl rfl) i1, by rw [i2]; omega⟩

/-! ## One position -/

/-- The array while position `i = pre.length` is worked on, before the step with offset `k + 1`. -/
def mid (pre : List Int) (x : Int) (k : Nat) (w : List Int) : List Int := pre ++ x :: (List.replicate k 0 ++ w)

theorem mid_get (pre : List Int) (x : Int) (k : Nat) (y : Int) (w : List Int) : lget (mid pre x k (y :: w)) (pre.length + (k + 1)) = y := by
  have := lget_append (pre ++ x :: List.replicate k 0) y w
  simpa [mid] using this

theorem mid_get0 (pre : List Int) (x : Int) (k : Nat) (w : List Int) : lget (mid pre x k w) pre.length = x := lget_append ..

theorem mid_zero (pre : List Int) (x : Int) (k : Nat) (w : List Int) : mid pre x k (0 :: w) = mid pre x (k + 1) w := by
  simp [mid, List.replicate_succ', List.append_assoc]

theorem mid_set0 (pre : List Int) (x : Int) (k : Nat) (w : List Int) (z : Int) : (mid pre x k w).set pre.length z = mid pre z k w := set_append ..

theorem mid_set (pre : List Int) (x : Int) (k : Nat) (y : Int) (w : List Int) (z : Int) :
    (mid pre x k (y :: w)).set (pre.length + (k + 1)) z = mid pre x k (z :: w) := by
  have := set_append (pre ++ x :: List.replicate k 0) y w z
  simp only [List.length_append, List.length_cons, List.length_replicate, List.append_assoc, List.cons_append] at this
  exact this

theorem mid_carry (pre : List Int) (x : Int) (k : Nat) (w : List Int) (hl : (mid pre x k w).length = 256) :
    slideCarry (256 - (pre.length + (k + 1))) (mid pre x k w) (pre.length + (k + 1)) = mid pre x k (inc w) := by
  have := slideCarry_eq w (pre ++ x :: List.replicate k 0)
  have e : w.length = 256 - (pre.length + (k + 1)) := by simp [mid] at hl; omega
  rw [← e]
  simpa [mid] using this

theorem mid_length (pre : List Int) (x : Int) (k : Nat) (w : List Int) : (mid pre x k w).length = pre.length + 1 + k + w.length := by
  simp [mid]; omega

/-- A step of the loop over `b`. -/
theorem inner_step {pre : List Int} {x : Int} {k : Nat} {w : List Int} (bs : List Nat) (hl : (mid pre x k w).length = 256) (hk : k ≤ 5)
    (hx : -15 ≤ x ∧ x ≤ 15) (hw : Bits w) :
    slideInner pre.length ((k + 1) :: bs) (mid pre x k w) =
      match w with
      | [] => mid pre x k []
      | y :: w => if y = 0 then slideInner pre.length bs (mid pre x (k + 1) w)
        else if x + 2 ^ (k + 1) ≤ 15 then slideInner pre.length bs (mid pre (x + 2 ^ (k + 1)) (k + 1) w)
        else if x - 2 ^ (k + 1) ≥ -15 then slideInner pre.length bs (mid pre (x - 2 ^ (k + 1)) (k + 1) (inc w))
        else mid pre x k (1 :: w) := by
  have hl' := hl
  rw [mid_length] at hl'
  rw [slideInner.eq_2]
  match w, hw with
  | [], _ =>
    rw [if_neg (by simp at hl'; omega)]
  | y :: w, hw =>
    rw [if_pos (by simp at hl'; omega), mid_get, mid_get0]
    rcases hw.cons.1 with rfl | rfl
    · rw [if_neg (by simp), mid_zero]; simp
    · have hp : (2 : Int) ^ (k + 1) ≤ 64 ∧ 1 ≤ (2 : Int) ^ (k + 1) := by interval_cases k <;> decide
      rw [if_pos (by decide)]
      generalize (2 : Int) ^ (k + 1) = p at *
      have w1 : wrap 8 (1 * p) = p := by rw [one_mul]; exact wrap_id (by norm_num; omega) (by norm_num; omega) (by decide)
      have w2 : wrap 8 (x + p) = x + p := wrap_id (by norm_num; omega) (by norm_num; omega) (by decide)
      have w3 : wrap 8 (x - p) = x - p := wrap_id (by norm_num; omega) (by norm_num; omega) (by decide)
      dsimp only
      rw [w1, w2, w3, mid_set0, mid_set0, mid_set, mid_zero, mid_carry _ _ _ _ (by rw [mid_length] at *; omega)]
      simp only [inc, if_neg one_ne_zero, mid_zero]

/-- What the loop over `b` leaves behind: the digit at the position, and binary digits after it. -/
structure InnerOk (pre : List Int) (V : Int) (r : List Int) : Prop where
  ex : ∃ (x : Int) (t : List Int), r = pre ++ x :: t ∧ r.length = 256 ∧ x % 2 = 1 ∧ -15 ≤ x ∧ x ≤ 15 ∧ Bits t ∧ x + 2 * bval t = V ∧
    bval t ≤ 2 ^ (254 - pre.length)

theorem InnerOk.of_mid {pre : List Int} {x : Int} {k : Nat} {w : List Int} {V : Int} (hl : (mid pre x k w).length = 256) (hx : x % 2 = 1)
    (h1 : -15 ≤ x) (h2 : x ≤ 15) (hw : Bits w) (hV : x + 2 * (2 ^ k * bval w) = V) (hb : 2 ^ k * bval w ≤ 2 ^ (254 - pre.length)) :
    InnerOk pre V (mid pre x k w) :=
  ⟨⟨x, _, rfl, hl, hx, h1, h2, hw.zeros, by rw [bval_zeros]; exact hV, by rw [bval_zeros]; exact hb⟩⟩

/-- The state from offset 5 on. -/
structure InvB (pre : List Int) (V x : Int) (k : Nat) (w : List Int) : Prop where
  len : (mid pre x k w).length = 256
  odd : x % 2 = 1
  lo : -15 ≤ x
  hi : x ≤ 15
  bits : Bits w
  val : x + 2 * (2 ^ k * bval w) = V
  bound : 2 ^ k * bval w ≤ 2 ^ (254 - pre.length)

theorem InvB.ok {pre : List Int} {V x : Int} {k : Nat} {w : List Int} (h : InvB pre V x k w) : InnerOk pre V (mid pre x k w) :=
  .of_mid h.len h.odd h.lo h.hi h.bits h.val h.bound

/-- Offsets 5 and 6 change nothing. -/
theorem inner_hi {pre : List Int} {V : Int} {k : Nat} {bs : List Nat} (hk : k = 4 ∨ k = 5)
    (next : ∀ x w, InvB pre V x (k + 1) w → InnerOk pre V (slideInner pre.length bs (mid pre x (k + 1) w))) {x : Int} {w : List Int}
    (h : InvB pre V x k w) : InnerOk pre V (slideInner pre.length ((k + 1) :: bs) (mid pre x k w)) := by
  rw [inner_step bs h.len (by omega) ⟨h.lo, h.hi⟩ h.bits]
  match w, h with
  | [], h => exact h.ok
  | y :: w, h =>
    have hp : (32 : Int) ≤ 2 ^ (k + 1) := by rcases hk with rfl | rfl <;> decide
    have lo := h.lo
    have hi := h.hi
    dsimp only
    rcases h.bits.cons.1 with rfl | rfl
    · rw [if_pos rfl]
      refine next x w ⟨by have := h.len; rw [mid_zero] at this; exact this, h.odd, lo, hi, h.bits.cons.2, ?_, ?_⟩
      · have := h.val; simp only [bval] at this; rw [pow_succ]; linarith
      · have := h.bound; simp only [bval] at this; rw [pow_succ]; linarith
    · rw [if_neg (by decide), if_neg (by omega), if_neg (by omega)]
      exact h.ok

/-- The state up to offset 4. -/
structure InvA (pre : List Int) (V x : Int) (k : Nat) (w : List Int) : Prop where
  len : (mid pre x k w).length = 256
  odd : x % 2 = 1
  lo : 1 ≤ x
  hi : x < 2 ^ (k + 1)
  bits : Bits w
  val : x + 2 * (2 ^ k * bval w) = V
  bound : 2 ^ k * bval w < 2 ^ (254 - pre.length)

theorem InvA.toB {pre : List Int} {V x : Int} {k : Nat} {w : List Int} (h : InvA pre V x k w) (hk : k ≤ 3) : InvB pre V x k w :=
  ⟨h.len, h.odd, by have := h.lo; omega, by
    have := h.hi
    have : (2 : Int) ^ (k + 1) ≤ 16 := by interval_cases k <;> decide
    omega, h.bits, h.val, le_of_lt h.bound⟩

/-- Offsets 1 to 3 absorb the bit. -/
theorem inner_lo {pre : List Int} {V : Int} {k : Nat} {bs : List Nat} (hk : k < 3)
    (next : ∀ x w, InvA pre V x (k + 1) w → InnerOk pre V (slideInner pre.length bs (mid pre x (k + 1) w))) {x : Int} {w : List Int}
    (h : InvA pre V x k w) : InnerOk pre V (slideInner pre.length ((k + 1) :: bs) (mid pre x k w)) := by
  have hB := h.toB (by omega)
  rw [inner_step bs h.len (by omega) ⟨hB.lo, hB.hi⟩ h.bits]
  match w, h, hB with
  | [], h, hB => exact hB.ok
  | y :: w, h, hB =>
    have hp : (2 : Int) ^ (k + 1) ≤ 8 ∧ (2 : Int) ^ (k + 1) % 2 = 0 := by interval_cases k <;> decide
    have lo := h.lo
    have hi := h.hi
    have odd := h.odd
    have e2 : (2 : Int) ^ (k + 1) = 2 ^ k * 2 := pow_succ 2 k
    have e3 : (2 : Int) ^ (k + 1 + 1) = 2 ^ (k + 1) * 2 := pow_succ 2 (k + 1)
    have hl := h.len
    have hv := h.val
    have hbd := h.bound
    have p1 : 1 ≤ (2 : Int) ^ k := by interval_cases k <;> decide
    dsimp only
    simp only [bval] at hv hbd
    rcases h.bits.cons.1 with rfl | rfl
    · rw [if_pos rfl]
      refine next x w ⟨by rw [mid_zero] at hl; exact hl, odd, lo, ?_, h.bits.cons.2, ?_, ?_⟩
      · rw [e3]; omega
      · rw [e2]; linarith
      · rw [e2]; linarith
    · rw [if_neg (by decide), if_pos (by omega)]
      refine next _ w ⟨?_, ?_, ?_, ?_, h.bits.cons.2, ?_, ?_⟩
      · rw [mid_length] at *; simp only [List.length_cons] at hl; omega
      · omega
      · omega
      · rw [e3]; omega
      · rw [e2]; linarith
      · rw [e2]; linarith

/-- Offset 4: subtract and carry. -/
theorem inner_four {pre : List Int} {V : Int} {bs : List Nat}
    (next : ∀ x w, InvB pre V x 4 w → InnerOk pre V (slideInner pre.length bs (mid pre x 4 w))) {x : Int} {w : List Int}
    (h : InvA pre V x 3 w) : InnerOk pre V (slideInner pre.length (4 :: bs) (mid pre x 3 w)) := by
  have hB := h.toB (by omega)
  rw [inner_step (k := 3) bs h.len (by omega) ⟨hB.lo, hB.hi⟩ h.bits]
  match w, h, hB with
  | [], h, hB => exact hB.ok
  | y :: w, h, hB =>
    have lo := h.lo
    have hi := h.hi
    have odd := h.odd
    have hl := h.len
    have hv := h.val
    have hbd := h.bound
    have hb := h.bits.cons.2
    have nn := hb.nonneg
    dsimp only
    simp only [bval] at hv hbd
    norm_num at hv hbd hi ⊢
    rcases h.bits.cons.1 with rfl | rfl
    · rw [if_pos rfl]
      refine next x w ⟨by rw [mid_zero] at hl; exact hl, odd, by omega, by omega, hb, ?_, ?_⟩
      · norm_num; linarith
      · norm_num; linarith
    · rw [if_neg (by decide), if_neg (by omega), if_pos (by omega)]
      rw [mid_length] at hl
      simp only [List.length_cons] at hl
      obtain ⟨n, hn⟩ : ∃ n, pre.length + n = 251 := ⟨251 - pre.length, by omega⟩
      have e1 : 254 - pre.length = n + 3 := by omega
      have e2 : w.length = n := by omega
      rw [e1, pow_add] at hbd
      have hbd' : 1 + 2 * bval w < 2 ^ n := by norm_num at hbd; omega
      obtain ⟨i1, i2⟩ := inc_spec hb (by rw [e2]; omega)
      refine next _ _ ⟨?_, by omega, by omega, by omega, i1, ?_, ?_⟩
      · rw [mid_length, inc_length]; omega
      · rw [i2]; norm_num; linarith
      · rw [i2, e1, pow_add]
        have : (2 : Int) ^ n % 2 = 0 := by
          cases n with
          | zero => norm_num at hbd'; omega
          | succ n => rw [pow_succ]; omega
        norm_num
        omega

theorem inner_ok {pre t : List Int} {V : Int} (hl : pre.length + 1 + t.length = 256) (ht : Bits t) (hV : 1 + 2 * bval t = V)
    (hb : V ≤ 2 ^ (255 - pre.length)) : InnerOk pre V (slideInner pre.length [1, 2, 3, 4, 5, 6] (pre ++ 1 :: t)) := by
  have e : pre ++ 1 :: t = mid pre 1 0 t := by simp [mid]
  rw [e]
  refine inner_lo (k := 0) (by decide) (fun x w h => ?_) ⟨by rw [mid_length]; omega, by decide, by decide, by decide, ht, by simpa using hV, ?_⟩
  · refine inner_lo (k := 1) (by decide) (fun x w h => ?_) h
    refine inner_lo (k := 2) (by decide) (fun x w h => ?_) h
    refine inner_four (fun x w h => ?_) h
    refine inner_hi (k := 4) (Or.inl rfl) (fun x w h => ?_) h
    refine inner_hi (k := 5) (Or.inr rfl) (fun x w h => ?_) h
    exact h.ok
  · match t with
    | [] => simp [bval]
    | y :: t =>
      have e : 255 - pre.length = 254 - pre.length + 1 := by simp at hl; omega
      rw [e, pow_succ] at hb
      simp only [pow_zero, one_mul]
      omega

/-! ## All positions -/

/-- A digit of the result. -/
def Digit (x : Int) : Prop := x = 0 ∨ (x % 2 = 1 ∧ -15 ≤ x ∧ x ≤ 15)

structure SlideInv (a : Int) (i : Nat) (r : List Int) : Prop where
  ex : ∃ (pre t : List Int), r = pre ++ t ∧ pre.length = i ∧ r.length = 256 ∧ (∀ x ∈ pre, Digit x) ∧ Bits t ∧ bval r = a ∧
    bval t ≤ 2 ^ (255 - i)

theorem slide_step {a : Int} {i : Nat} {r : List Int} (hi : i < 256) (h : SlideInv a i r) :
    SlideInv a (i + 1) (if lget r i ≠ 0 then slideInner i [1, 2, 3, 4, 5, 6] r else r) := by
  obtain ⟨pre, t, rfl, rfl, hl, hd, hb, hv, hle⟩ := h.ex
  match t, hb with
  | [], _ => simp at hl; omega
  | y :: t, hb =>
    rw [lget_append]
    rw [bval_append] at hv
    rcases hb.cons.1 with rfl | rfl
    · rw [if_neg (by simp)]
      refine ⟨pre ++ [0], t, by simp, by simp, hl, ?_, hb.cons.2, ?_, ?_⟩
      · intro x hx
        rcases List.mem_append.1 hx with hx | hx
        · exact hd x hx
        · left; simpa using hx
      · rw [bval_append]; exact hv
      · have nn := hb.cons.2.nonneg
        match t with
        | [] => simp only [bval]; positivity
        | z :: t =>
          have e : 255 - pre.length = 255 - (pre.length + 1) + 1 := by simp at hl; omega
          rw [e, pow_succ] at hle
          simp only [bval] at hle ⊢
          omega
    · rw [if_pos (by decide)]
      obtain ⟨x, t', e, l, odd, lo, hi', bt, hV, hle'⟩ :=
        (inner_ok (V := 1 + 2 * bval t) (by simp at hl; omega) hb.cons.2 rfl hle).ex
      rw [e]
      refine ⟨pre ++ [x], t', by simp, by simp, by rw [← e]; exact l, ?_, bt, ?_, ?_⟩
      · intro z hz
        rcases List.mem_append.1 hz with hz | hz
        · exact hd z hz
        · right
          have : z = x := by simpa using hz
          rw [this]; exact ⟨odd, lo, hi'⟩
      · rw [bval_append, bval, hV]; exact hv
      · rw [show 255 - (pre.length + 1) = 254 - pre.length by omega]; exact hle'

theorem slideInit_bits (a : Bytes) : Bits (slideInit a) := by
  intro x hx
  unfold slideInit at hx
  obtain ⟨i, _, rfl⟩ := List.mem_map.1 hx
  have : ∀ v : UInt8, wrap 8 ((1 &&& v).toNat) = 0 ∨ wrap 8 ((1 &&& v).toNat) = 1 := forall_byte (by decide +kernel)
  exact this _

/-- Bits of bytes. -/
theorem byte_bits : ∀ v : UInt8, bval ((List.range 8).map fun i => wrap 8 ((1 &&& (v >>> UInt8.ofNat i)).toNat)) = v.toNat :=
  forall_byte (by decide +kernel)

theorem slideInit_aux : ∀ (n : Nat) (a : Bytes), a.length = n →
    bval ((List.range (8 * n)).map fun i => wrap 8 ((1 &&& (a.getD (i / 8) 0 >>> UInt8.ofNat (i % 8))).toNat)) = leNat a
  | 0, a, h => by
    have : a = [] := List.length_eq_zero_iff.1 h
    subst this; rfl
  | n + 1, a, h => by
    match a, h with
    | v :: a, h =>
      have ih := slideInit_aux n a (by simpa using h)
      rw [show 8 * (n + 1) = 8 + 8 * n by omega, List.range_add, List.map_append, bval_append, List.map_map]
      have e1 : (List.range 8).map (fun i => wrap 8 ((1 &&& ((v :: a).getD (i / 8) 0 >>> UInt8.ofNat (i % 8))).toNat))
          = (List.range 8).map fun i => wrap 8 ((1 &&& (v >>> UInt8.ofNat i)).toNat) := by
        refine List.map_congr_left fun i hi => ?_
        have hi := List.mem_range.1 hi
        rw [Nat.div_eq_of_lt hi, Nat.mod_eq_of_lt hi, List.getD_cons_zero]
      have e2 : ((fun i => wrap 8 ((1 &&& ((v :: a).getD (i / 8) 0 >>> UInt8.ofNat (i % 8))).toNat)) ∘ fun x => 8 + x)
          = fun i => wrap 8 ((1 &&& (a.getD (i / 8) 0 >>> UInt8.ofNat (i % 8))).toNat) := by
        funext i
        simp only [Function.comp_apply, Nat.add_mod_left]
        rw [show (8 + i) / 8 = i / 8 + 1 by omega, List.getD_cons_succ]
      rw [e1, e2, ih, byte_bits, leNat]
      simp

theorem slide_spec {a : Bytes} (ha : a.length = 32) (hlt : leNat a < 2 ^ 255) :
    (slide a).length = 256 ∧ bval (slide a) = leNat a ∧ ∀ x ∈ slide a, Digit x := by
  have h0 : SlideInv (leNat a) 0 (slideInit a) := by
    have hv : bval (slideInit a) = leNat a := slideInit_aux 32 a ha
    refine ⟨[], slideInit a, rfl, rfl, by simp [slideInit], by simp, slideInit_bits a, hv, ?_⟩
    rw [hv]
    have : (leNat a : Int) < ((2 ^ 255 : Nat) : Int) := Int.ofNat_lt.2 hlt
    refine le_of_lt (lt_of_lt_of_eq this ?_)
    norm_num
  have : ∀ n, n ≤ 256 → SlideInv (leNat a) n
      ((List.range n).foldl (fun r i => if lget r i ≠ 0 then slideInner i [1, 2, 3, 4, 5, 6] r else r) (slideInit a)) := by
    intro n
    induction n with
    | zero => intro _; exact h0
    | succ n ih =>
      intro hn
      rw [List.range_succ, List.foldl_append, List.foldl_cons, List.foldl_nil]
      exact slide_step (by omega) (ih (by omega))
  obtain ⟨pre, t, e, hp, hl, hd, -, hv, -⟩ := (this 256 (by decide)).ex
  have ht : t = [] := by
    rw [e] at hl
    simp at hl
    exact List.length_eq_zero_iff.1 (by omega)
  rw [ht, List.append_nil] at e
  change slide a = pre at e
  refine ⟨by rw [e]; exact hp, hv, by rw [e]; exact hd⟩

/-! ## The double scalar multiplication -/

attribute [local irreducible] FeMul FeSquare FeSquare2 FeAdd FeSub FeNeg FeInvert Bd fz base bi B

/-- Default of out-of-range look-ups, never used. -/
abbrev noCached : Cached := ⟨FeZero, FeZero, FeZero, FeZero⟩

theorem oddMultiples_rep {A : Ext} {P : Pt} (h : ExtRep A P) (j : Nat) (hj : j < 8) :
    CachedRep ((oddMultiples A).getD j noCached) ((2 * j + 1) • P) := by
  have hA2 := (Ext.double_rep h).toExtended
  have key : ∀ n, n ≤ 7 → ∀ l, l = (List.range n).foldl (fun Ai i => Ai ++ [(geAdd A.Double.ToExtended (Ai.getD i noCached)).ToExtended.ToCached]) [A.ToCached] →
      l.length = n + 1 ∧ ∀ j, j ≤ n → CachedRep (l.getD j noCached) ((2 * j + 1) • P) := by
    intro n
    induction n with
    | zero =>
      intro _ l hl
      rw [List.range_zero, List.foldl_nil] at hl
      subst hl
      refine ⟨rfl, fun j hj => ?_⟩
      have : j = 0 := by omega
      subst this
      rw [List.getD_cons_zero, Nat.mul_zero, Nat.zero_add, one_nsmul]
      exact h.toCached
    | succ n ih =>
      intro hn l hl
      rw [List.range_succ, List.foldl_append, List.foldl_cons, List.foldl_nil] at hl
      obtain ⟨i1, i2⟩ := ih (by omega) _ rfl
      generalize (List.range n).foldl (fun Ai i => Ai ++ [(geAdd A.Double.ToExtended (Ai.getD i noCached)).ToExtended.ToCached]) [A.ToCached] = l0 at *
      subst hl
      refine ⟨by simp [i1], fun j hj => ?_⟩
      by_cases hjn : j ≤ n
      · rw [List.getD_eq_getElem?_getD, List.getElem?_append_left (by omega), ← List.getD_eq_getElem?_getD]; exact i2 j hjn
      · have : j = n + 1 := by omega
        subst this
        rw [List.getD_eq_getElem?_getD, List.getElem?_append_right (by omega), i1, Nat.sub_self, List.getElem?_cons_zero, Option.getD_some]
        have := (geAdd_rep hA2 (i2 n (by omega))).toExtended.toCached
        rw [← two_nsmul, ← add_nsmul, show 2 + (2 * n + 1) = 2 * (n + 1) + 1 by omega] at this
        exact this
  exact (key 7 (by decide) _ rfl).2 j (by omega)

theorem bi_at {j : Nat} (hj : j < 8) : PreCompRep (bi.getD j PreComp.Zero) ((2 * j + 1) • B) := by
  have hl : bi.length = 8 := by unfold bi; rfl
  refine bi_rep ?_
  rw [List.getElem?_eq_getElem (by omega), List.getD_eq_getElem?_getD, List.getElem?_eq_getElem (by omega)]
  rfl

theorem digit_pos {x : Int} (h : Digit x) (hp : 0 < x) (P : Pt) : (x / 2).toNat < 8 ∧ (2 * (x / 2).toNat + 1) • P = x • P := by
  rcases h with rfl | ⟨h1, h2, h3⟩
  · omega
  · refine ⟨by omega, ?_⟩
    rw [← natCast_zsmul]
    congr 1
    push_cast
    omega

theorem digit_neg {x : Int} (h : Digit x) (hp : x < 0) (P : Pt) : (wrap 8 (-x) / 2).toNat < 8 ∧ (2 * (wrap 8 (-x) / 2).toNat + 1) • P = (-x) • P := by
  rcases h with rfl | ⟨h1, h2, h3⟩
  · omega
  · rw [show wrap 8 (-x) = -x from wrap_id (by norm_num; omega) (by norm_num; omega) (by decide)]
    refine ⟨by omega, ?_⟩
    rw [← natCast_zsmul]
    congr 1
    push_cast
    omega

theorem doubleStep_rep {Ai : List Cached} {P : Pt} (hAi : ∀ j, j < 8 → CachedRep (Ai.getD j noCached) ((2 * j + 1) • P))
    {r : Proj} {R : Pt} (hr : ProjRep r R) {da db : Int} (ha : Digit da) (hb : Digit db) :
    ProjRep (doubleStep Ai r da db) (R + R + da • P + db • B) := by
  have ht := Proj.double_rep hr
  unfold doubleStep
  dsimp only
  generalize r.Double = t at *
  have h1 : ComplRep (if da > 0 then geAdd t.ToExtended (Ai.getD (da / 2).toNat noCached)
      else if da < 0 then geSub t.ToExtended (Ai.getD (wrap 8 (-da) / 2).toNat noCached) else t) (R + R + da • P) := by
    by_cases c1 : da > 0
    · rw [if_pos c1]
      obtain ⟨q, e⟩ := digit_pos ha c1 P
      have := geAdd_rep ht.toExtended (hAi _ q)
      rwa [e] at this
    · rw [if_neg c1]
      by_cases c2 : da < 0
      · rw [if_pos c2]
        obtain ⟨q, e⟩ := digit_neg ha c2 P
        have := geSub_rep ht.toExtended (hAi _ q)
        rwa [e, neg_zsmul, sub_neg_eq_add] at this
      · have : da = 0 := by omega
        rw [if_neg c2, this, zero_zsmul, add_zero]; exact ht
  generalize (if da > 0 then geAdd t.ToExtended (Ai.getD (da / 2).toNat noCached)
      else if da < 0 then geSub t.ToExtended (Ai.getD (wrap 8 (-da) / 2).toNat noCached) else t) = t' at *
  refine ComplRep.toProjective ?_
  by_cases c1 : db > 0
  · rw [if_pos c1]
    obtain ⟨q, e⟩ := digit_pos hb c1 B
    have := geMixedAdd_rep h1.toExtended (bi_at q)
    rwa [e] at this
  · rw [if_neg c1]
    by_cases c2 : db < 0
    · rw [if_pos c2]
      obtain ⟨q, e⟩ := digit_neg hb c2 B
      have := geMixedSub_rep h1.toExtended (bi_at q)
      rwa [e, neg_zsmul, sub_neg_eq_add] at this
    · have : db = 0 := by omega
      rw [if_neg c2, this, zero_zsmul, add_zero]; exact h1

theorem lget_digit {s : List Int} (h : ∀ x ∈ s, Digit x) (i : Nat) : Digit (lget s i) := by
  rcases lget_mem_or s i with hm | h0
  · exact h _ hm
  · left; exact h0

/-- The sums computed by the main loop. -/
def horner (sa sb : List Int) (P : Pt) (is : List Nat) (R : Pt) : Pt :=
  is.foldl (fun R i => R + R + lget sa i • P + lget sb i • B) R

theorem mainLoop_rep {Ai : List Cached} {P : Pt} (hAi : ∀ j, j < 8 → CachedRep (Ai.getD j noCached) ((2 * j + 1) • P))
    {sa sb : List Int} (ha : ∀ x ∈ sa, Digit x) (hb : ∀ x ∈ sb, Digit x) : ∀ (is : List Nat) {r : Proj} {R : Pt}, ProjRep r R →
    ProjRep (is.foldl (fun r i => doubleStep Ai r (lget sa i) (lget sb i)) r) (horner sa sb P is R)
  | [], _, _, h => h
  | i :: is, _, _, h => mainLoop_rep hAi ha hb is (doubleStep_rep hAi h (lget_digit ha i) (lget_digit hb i))

theorem horner_drop (sa sb : List Int) (P : Pt) : ∀ is : List Nat,
    horner sa sb P (is.dropWhile fun i => lget sa i = 0 && lget sb i = 0) 0 = horner sa sb P is 0
  | [] => rfl
  | i :: is => by
    rw [List.dropWhile_cons]
    split
    · rename_i h
      simp only [Bool.and_eq_true, decide_eq_true_eq] at h
      rw [horner_drop sa sb P is]
      simp only [horner, List.foldl_cons, h.1, h.2, zero_zsmul, add_zero]
    · rfl

theorem bval_take_succ : ∀ (s : List Int) (n : Nat), n < s.length → bval (s.take (n + 1)) = bval (s.take n) + 2 ^ n * lget s n
  | [], n, h => by simp at h
  | x :: s, 0, _ => by simp [bval, lget]
  | x :: s, n + 1, h => by
    rw [List.take_succ_cons, bval, bval_take_succ s n (by simpa using h), List.take_succ_cons, bval, pow_succ]
    have : lget (x :: s) (n + 1) = lget s n := rfl
    rw [this]; ring

theorem horner_eq {sa sb : List Int} {P : Pt} : ∀ (n : Nat), n ≤ sa.length → n ≤ sb.length → ∀ R,
    horner sa sb P (List.range n).reverse R = (2 ^ n : Int) • R + bval (sa.take n) • P + bval (sb.take n) • B
  | 0, _, _, R => by simp [horner, bval]
  | n + 1, h1, h2, R => by
    rw [List.range_succ, List.reverse_append, List.reverse_singleton, List.singleton_append]
    have : horner sa sb P (n :: (List.range n).reverse) R = horner sa sb P (List.range n).reverse (R + R + lget sa n • P + lget sb n • B) := rfl
    rw [this, horner_eq n (by omega) (by omega), bval_take_succ sa n (by omega), bval_take_succ sb n (by omega)]
    rw [← two_zsmul, pow_succ]
    simp only [add_zsmul, zsmul_add, mul_zsmul]
    abel

/-- `GeDoubleScalarMultVartime` computes `a A + b B`. -/
theorem GeDoubleScalarMultVartime_rep {a b : Bytes} {A : Ext} {P : Pt} (ha : a.length = 32) (hal : leNat a < 2 ^ 255) (hb : b.length = 32)
    (hbl : leNat b < 2 ^ 255) (hA : ExtRep A P) : ProjRep (GeDoubleScalarMultVartime a A b) (leNat a • P + leNat b • B) := by
  obtain ⟨a1, a2, a3⟩ := slide_spec ha hal
  obtain ⟨b1, b2, b3⟩ := slide_spec hb hbl
  have := mainLoop_rep (fun j hj => oddMultiples_rep hA j hj) a3 b3
    ((List.range 256).reverse.dropWhile fun i => lget (slide a) i = 0 && lget (slide b) i = 0) zero_proj
  rw [horner_drop, horner_eq 256 (by omega) (by omega), List.take_of_length_le (by omega), List.take_of_length_le (by omega), a2, b2,
    zsmul_zero, zero_add, natCast_zsmul, natCast_zsmul] at this
  exact this

end Cardano.Ed
