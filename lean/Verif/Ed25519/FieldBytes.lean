import Verif.Ed25519.FieldProof
/-!
# Reading and writing field elements
-/
set_option autoImplicit false

namespace Cardano.Ed

theorem fieldP_int : (fieldP : Int) = 2 ^ 255 - 19 := by decide +kernel

/-! ## `FeFromBytes` -/

def fromBytesIv : List Iv :=
  [(0, 2 ^ 32 - 1), (0, 2 ^ 30 - 1), (0, 2 ^ 29 - 1), (0, 2 ^ 27 - 1), (0, 2 ^ 26 - 1), (0, 2 ^ 32 - 1), (0, 2 ^ 31 - 1),
    (0, 2 ^ 29 - 1), (0, 2 ^ 28 - 1), (0, 2 ^ 25 - 1)]

theorem fromBytes_combine : combineOk fromBytesIv = true := by decide +kernel

theorem mask23 (x : Nat) : x &&& 8388607 = x % 2 ^ 23 := Nat.and_two_pow_sub_one_eq_mod x 23

theorem FeFromBytes_spec (src : Bytes) :
    Bd 1 (FeFromBytes src) ∧ (fieldP : Int) ∣ fval (FeFromBytes src) - ((leNat src % 2 ^ 255 : Nat) : Int) := by
  unfold FeFromBytes
  simp only [load3_eq, load4_eq, Nat.shiftLeft_eq, mask23]
  generalize leNat src = x at *
  have d4 : x / 256 ^ 7 = x / 256 ^ 4 / 256 ^ 3 := by rw [Nat.div_div_eq_div_mul, ← Nat.pow_add]
  have d7 : x / 256 ^ 10 = x / 256 ^ 4 / 256 ^ 3 / 256 ^ 3 := by rw [← d4, Nat.div_div_eq_div_mul, ← Nat.pow_add]
  have d10 : x / 256 ^ 13 = x / 256 ^ 4 / 256 ^ 3 / 256 ^ 3 / 256 ^ 3 := by rw [← d7, Nat.div_div_eq_div_mul, ← Nat.pow_add]
  have d13 : x / 256 ^ 16 = x / 256 ^ 4 / 256 ^ 3 / 256 ^ 3 / 256 ^ 3 / 256 ^ 3 := by rw [← d10, Nat.div_div_eq_div_mul, ← Nat.pow_add]
  have d16 : x / 256 ^ 20 = x / 256 ^ 4 / 256 ^ 3 / 256 ^ 3 / 256 ^ 3 / 256 ^ 3 / 256 ^ 4 := by
    rw [← d13, Nat.div_div_eq_div_mul, ← Nat.pow_add]
  have d20 : x / 256 ^ 23 = x / 256 ^ 4 / 256 ^ 3 / 256 ^ 3 / 256 ^ 3 / 256 ^ 3 / 256 ^ 4 / 256 ^ 3 := by
    rw [← d16, Nat.div_div_eq_div_mul, ← Nat.pow_add]
  have d23 : x / 256 ^ 26 = x / 256 ^ 4 / 256 ^ 3 / 256 ^ 3 / 256 ^ 3 / 256 ^ 3 / 256 ^ 4 / 256 ^ 3 / 256 ^ 3 := by
    rw [← d20, Nat.div_div_eq_div_mul, ← Nat.pow_add]
  have d26 : x / 256 ^ 29 = x / 256 ^ 4 / 256 ^ 3 / 256 ^ 3 / 256 ^ 3 / 256 ^ 3 / 256 ^ 4 / 256 ^ 3 / 256 ^ 3 / 256 ^ 3 := by
    rw [← d23, Nat.div_div_eq_div_mul, ← Nat.pow_add]
  have hm : x % 2 ^ 255 = x % 2 ^ 232 + 2 ^ 232 * (x / 2 ^ 232 % 2 ^ 23) := by
    rw [show (2 : Nat) ^ 255 = 2 ^ 232 * 2 ^ 23 from rfl, Nat.mod_mul]
  have hm2 : x % 2 ^ 232 + 2 ^ 232 * (x / 2 ^ 232) = x := Nat.mod_add_div _ _
  have hm3 : x / 2 ^ 232 = x / 256 ^ 29 := rfl
  rw [hm3, d26] at hm hm2
  rw [d4, d7, d10, d13, d16, d20, d23, d26]
  simp only [Nat.pow_zero, Nat.div_one]
  clear d4 d7 d10 d13 d16 d20 d23 d26 hm3
  have a0 : x % 2 ^ 32 + 2 ^ 32 * (x / 256 ^ 4) = x := Nat.mod_add_div _ _
  generalize x / 256 ^ 4 = x4 at *
  have a4 : x4 % 2 ^ 24 + 2 ^ 24 * (x4 / 256 ^ 3) = x4 := Nat.mod_add_div _ _
  generalize x4 / 256 ^ 3 = x7 at *
  have a7 : x7 % 2 ^ 24 + 2 ^ 24 * (x7 / 256 ^ 3) = x7 := Nat.mod_add_div _ _
  generalize x7 / 256 ^ 3 = x10 at *
  have a10 : x10 % 2 ^ 24 + 2 ^ 24 * (x10 / 256 ^ 3) = x10 := Nat.mod_add_div _ _
  generalize x10 / 256 ^ 3 = x13 at *
  have a13 : x13 % 2 ^ 24 + 2 ^ 24 * (x13 / 256 ^ 3) = x13 := Nat.mod_add_div _ _
  generalize x13 / 256 ^ 3 = x16 at *
  have a16 : x16 % 2 ^ 32 + 2 ^ 32 * (x16 / 256 ^ 4) = x16 := Nat.mod_add_div _ _
  generalize x16 / 256 ^ 4 = x20 at *
  have a20 : x20 % 2 ^ 24 + 2 ^ 24 * (x20 / 256 ^ 3) = x20 := Nat.mod_add_div _ _
  generalize x20 / 256 ^ 3 = x23 at *
  have a23 : x23 % 2 ^ 24 + 2 ^ 24 * (x23 / 256 ^ 3) = x23 := Nat.mod_add_div _ _
  generalize x23 / 256 ^ 3 = x26 at *
  have a26 : x26 % 2 ^ 24 + 2 ^ 24 * (x26 / 256 ^ 3) = x26 := Nat.mod_add_div _ _
  generalize x26 / 256 ^ 3 = x29 at *
  have a29 : x29 % 2 ^ 24 % 2 ^ 23 = x29 % 2 ^ 23 := Nat.mod_mod_of_dvd _ (by decide)
  rw [a29]
  have l0 : x % 2 ^ 32 < 2 ^ 32 := Nat.mod_lt _ (by decide)
  have l4 : x4 % 2 ^ 24 < 2 ^ 24 := Nat.mod_lt _ (by decide)
  have l7 : x7 % 2 ^ 24 < 2 ^ 24 := Nat.mod_lt _ (by decide)
  have l10 : x10 % 2 ^ 24 < 2 ^ 24 := Nat.mod_lt _ (by decide)
  have l13 : x13 % 2 ^ 24 < 2 ^ 24 := Nat.mod_lt _ (by decide)
  have l16 : x16 % 2 ^ 32 < 2 ^ 32 := Nat.mod_lt _ (by decide)
  have l20 : x20 % 2 ^ 24 < 2 ^ 24 := Nat.mod_lt _ (by decide)
  have l23 : x23 % 2 ^ 24 < 2 ^ 24 := Nat.mod_lt _ (by decide)
  have l26 : x26 % 2 ^ 24 < 2 ^ 24 := Nat.mod_lt _ (by decide)
  have l29 : x29 % 2 ^ 23 < 2 ^ 23 := Nat.mod_lt _ (by decide)
  generalize x % 2 ^ 255 = X at *
  generalize x % 2 ^ 232 = Y at *
  generalize x % 2 ^ 32 = y0 at *
  generalize x4 % 2 ^ 24 = y4 at *
  generalize x7 % 2 ^ 24 = y7 at *
  generalize x10 % 2 ^ 24 = y10 at *
  generalize x13 % 2 ^ 24 = y13 at *
  generalize x16 % 2 ^ 32 = y16 at *
  generalize x20 % 2 ^ 24 = y20 at *
  generalize x23 % 2 ^ 24 = y23 at *
  generalize x26 % 2 ^ 24 = y26 at *
  generalize x29 % 2 ^ 23 = y29 at *
  have hX : X = y0 + 2 ^ 32 * y4 + 2 ^ 56 * y7 + 2 ^ 80 * y10 + 2 ^ 104 * y13 + 2 ^ 128 * y16 + 2 ^ 160 * y20 + 2 ^ 184 * y23
      + 2 ^ 208 * y26 + 2 ^ 232 * y29 := by
    zify at *
    linear_combination hm + hm2 - a0 - 2 ^ 32 * a4 - 2 ^ 56 * a7 - 2 ^ 80 * a10 - 2 ^ 104 * a13 - 2 ^ 128 * a16 - 2 ^ 160 * a20
      - 2 ^ 184 * a23 - 2 ^ 208 * a26
  have hw : Within fromBytesIv ([y0, y4 * 2 ^ 6, y7 * 2 ^ 5, y10 * 2 ^ 3, y13 * 2 ^ 2, y16, y20 * 2 ^ 7, y23 * 2 ^ 5, y26 * 2 ^ 4,
      y29 * 2 ^ 2].map (fun n : Nat => (n : Int))) := by
    refine ⟨rfl, fun i hi => ?_⟩
    simp only [List.length_map, List.length_cons, List.length_nil] at hi
    match i, hi with
    | 0, _ | 1, _ | 2, _ | 3, _ | 4, _ | 5, _ | 6, _ | 7, _ | 8, _ | 9, _ =>
      simp only [fromBytesIv, lget, bget, Iv.mem, List.map_cons, List.getD_cons_succ, List.getD_cons_zero]
      omega
  obtain ⟨b, d⟩ := combine_spec fromBytes_combine hw
  refine ⟨b, ?_⟩
  have e : dot feW ([y0, y4 * 2 ^ 6, y7 * 2 ^ 5, y10 * 2 ^ 3, y13 * 2 ^ 2, y16, y20 * 2 ^ 7, y23 * 2 ^ 5, y26 * 2 ^ 4,
      y29 * 2 ^ 2].map (fun n : Nat => (n : Int))) = (X : Int) := by
    rw [hX]
    simp only [List.map_cons, List.map_nil, dot, feW]
    push_cast
    ring
  rwa [e] at d

/-! ## `FeToBytes` -/

theorem natAbs_bd {x : Int} {n : Nat} (h : x.natAbs ≤ n) : -(n : Int) ≤ x ∧ x ≤ n := by omega

theorem qstep (k : Nat) (f q : Int) (h1 : -2147483648 ≤ f + q) (h2 : f + q < 2147483648) :
    ∃ r : Int, wrap 32 (f + q) / 2 ^ k = r ∧ 2 ^ k * r ≤ f + q ∧ f + q < 2 ^ k * r + 2 ^ k := by
  have w : wrap 32 (f + q) = f + q := wrap_id (by simpa using h1) (by simpa using h2) (by decide)
  have hk : (0 : Int) < 2 ^ k := by positivity
  refine ⟨_, rfl, ?_, ?_⟩
  · rw [w]; exact Int.mul_ediv_self_le (ne_of_gt hk)
  · rw [w]; exact Int.lt_mul_ediv_self_add hk

/-- The arithmetic behind the quotient estimate of `FeToBytes`. -/
theorem q_exact {V H L q q0 : Int} (hV : V = 2 ^ 230 * H + L) (hH : -(2 ^ 26) ≤ H ∧ H ≤ 2 ^ 26) (hL : -(2 ^ 233) ≤ L ∧ L ≤ 2 ^ 233)
    (a : 2 ^ 25 * q0 ≤ 19 * H + 2 ^ 24) (b : 19 * H + 2 ^ 24 < 2 ^ 25 * q0 + 2 ^ 25)
    (c : 2 ^ 255 * q ≤ V + q0) (d : V + q0 < 2 ^ 255 * q + 2 ^ 255) : q = V / fieldP := by
  rw [fieldP_int]
  have e := Int.mul_ediv_add_emod V (2 ^ 255 - 19)
  have l := Int.emod_nonneg V (b := 2 ^ 255 - 19) (by norm_num)
  have u := Int.emod_lt_of_pos V (b := 2 ^ 255 - 19) (by norm_num)
  generalize V / (2 ^ 255 - 19) = Q at *
  generalize V % (2 ^ 255 - 19) = r at *
  norm_num at *
  obtain ⟨hH1, hH2⟩ := hH
  obtain ⟨hL1, hL2⟩ := hL
  have A : 19 * Q - q0 ≤ 0 := by
    by_contra hc
    have hc : 1 ≤ 19 * Q - q0 := by omega
    linarith
  have B : q0 - 19 * Q ≤ 19 := by
    by_contra hc
    have hc : 20 ≤ q0 - 19 * Q := by omega
    linarith
  omega

/-- The quotient computed is the quotient of the represented integer by `2^255 - 19`. -/
theorem toBytesQ_eq {h : FE} (hh : Bd 3 h) : toBytesQ h = fval h / fieldP := by
  obtain ⟨f0, f1, f2, f3, f4, f5, f6, f7, f8, f9, rfl⟩ := len10 hh.length
  rw [Bd_iff] at hh
  obtain ⟨h0, h1, h2, h3, h4, h5, h6, h7, h8, h9⟩ := hh
  simp only [Nat.reduceMul] at *
  replace h0 := natAbs_bd h0
  replace h1 := natAbs_bd h1
  replace h2 := natAbs_bd h2
  replace h3 := natAbs_bd h3
  replace h4 := natAbs_bd h4
  replace h5 := natAbs_bd h5
  replace h6 := natAbs_bd h6
  replace h7 := natAbs_bd h7
  replace h8 := natAbs_bd h8
  replace h9 := natAbs_bd h9
  have w : wrap 32 (19 * f9) = 19 * f9 := wrap_id (by norm_num; omega) (by norm_num; omega) (by decide)
  simp only [toBytesQ, lget, List.getD_cons_succ, List.getD_cons_zero]
  rw [w]
  obtain ⟨q, e, l, u⟩ := qstep 25 (19 * f9) 16777216 (by omega) (by omega)
  rw [e]
  obtain ⟨q0, e0, l0, u0⟩ := qstep 26 f0 q (by omega) (by omega)
  rw [e0]
  obtain ⟨q1, e1, l1, u1⟩ := qstep 25 f1 q0 (by omega) (by omega)
  rw [e1]
  obtain ⟨q2, e2, l2, u2⟩ := qstep 26 f2 q1 (by omega) (by omega)
  rw [e2]
  obtain ⟨q3, e3, l3, u3⟩ := qstep 25 f3 q2 (by omega) (by omega)
  rw [e3]
  obtain ⟨q4, e4, l4, u4⟩ := qstep 26 f4 q3 (by omega) (by omega)
  rw [e4]
  obtain ⟨q5, e5, l5, u5⟩ := qstep 25 f5 q4 (by omega) (by omega)
  rw [e5]
  obtain ⟨q6, e6, l6, u6⟩ := qstep 26 f6 q5 (by omega) (by omega)
  rw [e6]
  obtain ⟨q7, e7, l7, u7⟩ := qstep 25 f7 q6 (by omega) (by omega)
  rw [e7]
  obtain ⟨q8, e8, l8, u8⟩ := qstep 26 f8 q7 (by omega) (by omega)
  rw [e8]
  obtain ⟨q9, e9, l9, u9⟩ := qstep 25 f9 q8 (by omega) (by omega)
  rw [e9]
  clear e0 e1 e2 e3 e4 e5 e6 e7 e8 e9 e w
  have hv : fval [f0, f1, f2, f3, f4, f5, f6, f7, f8, f9] = 2 ^ 230 * f9 + (2 ^ 0 * f0 + 2 ^ 26 * f1 + 2 ^ 51 * f2 + 2 ^ 77 * f3 + 2 ^ 102 * f4 + 2 ^ 128 * f5 + 2 ^ 153 * f6 + 2 ^ 179 * f7 + 2 ^ 204 * f8) := by
    simp only [fval, dot, feW]
    ring
  refine q_exact hv ?_ ?_ (by norm_num at *; omega) (by norm_num at *; omega) ?_ ?_
  · norm_num; omega
  · norm_num; omega
  · rw [hv]
    norm_num at *
    linarith
  · rw [hv]
    norm_num at *
    omega

theorem packField_eq {s : Limbs} (h : ∀ i, i < 10 → 0 ≤ lget s i ∧ lget s i < 2 ^ (if i % 2 = 0 then 26 else 25)) :
    (leNat (packField s) : Int) = dot feW [lget s 0, lget s 1, lget s 2, lget s 3, lget s 4, lget s 5, lget s 6, lget s 7, lget s 8, lget s 9] := by
  have b0 := h 0 (by decide)
  have b1 := h 1 (by decide)
  have b2 := h 2 (by decide)
  have b3 := h 3 (by decide)
  have b4 := h 4 (by decide)
  have b5 := h 5 (by decide)
  have b6 := h 6 (by decide)
  have b7 := h 7 (by decide)
  have b8 := h 8 (by decide)
  have b9 := h 9 (by decide)
  simp only [Nat.reduceMod, if_true, one_ne_zero, if_false] at b0 b1 b2 b3 b4 b5 b6 b7 b8 b9
  unfold packField
  generalize lget s 0 = s0 at *
  generalize lget s 1 = s1 at *
  generalize lget s 2 = s2 at *
  generalize lget s 3 = s3 at *
  generalize lget s 4 = s4 at *
  generalize lget s 5 = s5 at *
  generalize lget s 6 = s6 at *
  generalize lget s 7 = s7 at *
  generalize lget s 8 = s8 at *
  generalize lget s 9 = s9 at *
  obtain ⟨n0, rfl⟩ := Int.eq_ofNat_of_zero_le b0.1
  obtain ⟨n1, rfl⟩ := Int.eq_ofNat_of_zero_le b1.1
  obtain ⟨n2, rfl⟩ := Int.eq_ofNat_of_zero_le b2.1
  obtain ⟨n3, rfl⟩ := Int.eq_ofNat_of_zero_le b3.1
  obtain ⟨n4, rfl⟩ := Int.eq_ofNat_of_zero_le b4.1
  obtain ⟨n5, rfl⟩ := Int.eq_ofNat_of_zero_le b5.1
  obtain ⟨n6, rfl⟩ := Int.eq_ofNat_of_zero_le b6.1
  obtain ⟨n7, rfl⟩ := Int.eq_ofNat_of_zero_le b7.1
  obtain ⟨n8, rfl⟩ := Int.eq_ofNat_of_zero_le b8.1
  obtain ⟨n9, rfl⟩ := Int.eq_ofNat_of_zero_le b9.1
  simp only [leNat, lowByte_toNat, dot, feW]
  rw [joinByte_toNat (x := n0) (by omega) (by decide), joinByte_toNat (x := n1) (by omega) (by decide), joinByte_toNat (x := n2) (by omega) (by decide), joinByte_toNat (x := n3) (by omega) (by decide), joinByte_toNat (x := n5) (by omega) (by decide), joinByte_toNat (x := n6) (by omega) (by decide), joinByte_toNat (x := n7) (by omega) (by decide), joinByte_toNat (x := n8) (by omega) (by decide)]
  have c0 : 2 ^ 0 * (n0 / 2 ^ 0 % 256) + 2 ^ 8 * (n0 / 2 ^ 8 % 256) + 2 ^ 16 * (n0 / 2 ^ 16 % 256) + 2 ^ 24 * (n0 / 2 ^ 24) = 2 ^ 0 * n0 := by omega
  have c1 : 2 ^ 0 * (n1 % 2 ^ (8 - 2) * 2 ^ 2) + 2 ^ 8 * (n1 / 2 ^ 6 % 256) + 2 ^ 16 * (n1 / 2 ^ 14 % 256) + 2 ^ 24 * (n1 / 2 ^ 22) = 2 ^ 2 * n1 := by omega
  have c2 : 2 ^ 0 * (n2 % 2 ^ (8 - 3) * 2 ^ 3) + 2 ^ 8 * (n2 / 2 ^ 5 % 256) + 2 ^ 16 * (n2 / 2 ^ 13 % 256) + 2 ^ 24 * (n2 / 2 ^ 21) = 2 ^ 3 * n2 := by omega
  have c3 : 2 ^ 0 * (n3 % 2 ^ (8 - 5) * 2 ^ 5) + 2 ^ 8 * (n3 / 2 ^ 3 % 256) + 2 ^ 16 * (n3 / 2 ^ 11 % 256) + 2 ^ 24 * (n3 / 2 ^ 19) = 2 ^ 5 * n3 := by omega
  have c4 : 2 ^ 0 * (n4 % 2 ^ (8 - 6) * 2 ^ 6) + 2 ^ 8 * (n4 / 2 ^ 2 % 256) + 2 ^ 16 * (n4 / 2 ^ 10 % 256) + 2 ^ 24 * (n4 / 2 ^ 18 % 256) = 2 ^ 6 * n4 := by omega
  have c5 : 2 ^ 0 * (n5 / 2 ^ 0 % 256) + 2 ^ 8 * (n5 / 2 ^ 8 % 256) + 2 ^ 16 * (n5 / 2 ^ 16 % 256) + 2 ^ 24 * (n5 / 2 ^ 24) = 2 ^ 0 * n5 := by omega
  have c6 : 2 ^ 0 * (n6 % 2 ^ (8 - 1) * 2 ^ 1) + 2 ^ 8 * (n6 / 2 ^ 7 % 256) + 2 ^ 16 * (n6 / 2 ^ 15 % 256) + 2 ^ 24 * (n6 / 2 ^ 23) = 2 ^ 1 * n6 := by omega
  have c7 : 2 ^ 0 * (n7 % 2 ^ (8 - 3) * 2 ^ 3) + 2 ^ 8 * (n7 / 2 ^ 5 % 256) + 2 ^ 16 * (n7 / 2 ^ 13 % 256) + 2 ^ 24 * (n7 / 2 ^ 21) = 2 ^ 3 * n7 := by omega
  have c8 : 2 ^ 0 * (n8 % 2 ^ (8 - 4) * 2 ^ 4) + 2 ^ 8 * (n8 / 2 ^ 4 % 256) + 2 ^ 16 * (n8 / 2 ^ 12 % 256) + 2 ^ 24 * (n8 / 2 ^ 20) = 2 ^ 4 * n8 := by omega
  have c9 : 2 ^ 0 * (n9 % 2 ^ (8 - 6) * 2 ^ 6) + 2 ^ 8 * (n9 / 2 ^ 2 % 256) + 2 ^ 16 * (n9 / 2 ^ 10 % 256) + 2 ^ 24 * (n9 / 2 ^ 18 % 256) = 2 ^ 6 * n9 := by omega
  clear b0 b1 b2 b3 b4 b5 b6 b7 b8 b9 h
  simp only [Nat.reducePow, Nat.reduceSub, Nat.div_one] at *
  zify at c0 c1 c2 c3 c4 c5 c6 c7 c8 c9
  push_cast
  linear_combination 2 ^ 0 * c0 + 2 ^ 24 * c1 + 2 ^ 48 * c2 + 2 ^ 72 * c3 + 2 ^ 96 * c4 + 2 ^ 128 * c5 + 2 ^ 152 * c6 + 2 ^ 176 * c7 + 2 ^ 200 * c8 + 2 ^ 224 * c9

/-- Intervals of the limbs before the carries. -/
def toBytesIv : List Iv := ((ivB 3).set 0 (-(3 * 36909875 + 100), 3 * 36909875 + 100)) ++ [(0, 0)]

def canonIv : List Iv := [(0, 2 ^ 26 - 1), (0, 2 ^ 25 - 1), (0, 2 ^ 26 - 1), (0, 2 ^ 25 - 1), (0, 2 ^ 26 - 1), (0, 2 ^ 25 - 1),
  (0, 2 ^ 26 - 1), (0, 2 ^ 25 - 1), (0, 2 ^ 26 - 1), (0, 2 ^ 25 - 1), (-1000, 1000)]

theorem toBytes_bounds : (match bounds 32 toBytesIv toBytesOps with | none => false | some J => subIv J canonIv) = true := by
  decide +kernel

theorem toBytes_keeps : toBytesOps.all (keeps (feW ++ [2 ^ 255]) 0 (feW ++ [2 ^ 255]).length) = true := by decide +kernel

/-- A field element in the form written by `FeToBytes`: limbs of 26 and 25 bits. -/
def Canon (x : FE) : Prop := x.length = 10 ∧ ∀ i, i < 10 → 0 ≤ lget x i ∧ lget x i < 2 ^ (if i % 2 = 0 then 26 else 25)

theorem Canon.bd {x : FE} (h : Canon x) : Bd 2 x := by
  obtain ⟨f0, f1, f2, f3, f4, f5, f6, f7, f8, f9, rfl⟩ := len10 h.1
  have key : ∀ (f : Int) (k c : Nat), 0 ≤ f ∧ f < 2 ^ k → 2 ^ k ≤ c → f.natAbs ≤ c := by
    intro f k c hf hc
    have : f.natAbs < 2 ^ k := by zify; rw [abs_of_nonneg hf.1]; exact hf.2
    omega
  exact Bd_iff.2 ⟨key _ 26 _ (h.2 0 (by decide)) (by decide), key _ 25 _ (h.2 1 (by decide)) (by decide), key _ 26 _ (h.2 2 (by decide)) (by decide), key _ 25 _ (h.2 3 (by decide)) (by decide), key _ 26 _ (h.2 4 (by decide)) (by decide), key _ 25 _ (h.2 5 (by decide)) (by decide), key _ 26 _ (h.2 6 (by decide)) (by decide), key _ 25 _ (h.2 7 (by decide)) (by decide), key _ 26 _ (h.2 8 (by decide)) (by decide), key _ 25 _ (h.2 9 (by decide)) (by decide)⟩

theorem fval_bd {h : FE} (hh : Bd 3 h) : -(2 ^ 257) ≤ fval h ∧ fval h ≤ 2 ^ 257 := by
  obtain ⟨f0, f1, f2, f3, f4, f5, f6, f7, f8, f9, rfl⟩ := len10 hh.length
  rw [Bd_iff] at hh
  obtain ⟨h0, h1, h2, h3, h4, h5, h6, h7, h8, h9⟩ := hh
  simp only [Nat.reduceMul] at *
  replace h0 := natAbs_bd h0
  replace h1 := natAbs_bd h1
  replace h2 := natAbs_bd h2
  replace h3 := natAbs_bd h3
  replace h4 := natAbs_bd h4
  replace h5 := natAbs_bd h5
  replace h6 := natAbs_bd h6
  replace h7 := natAbs_bd h7
  replace h8 := natAbs_bd h8
  replace h9 := natAbs_bd h9
  simp only [fval, dot, feW]
  norm_num
  omega

/-- `FeToBytes` on elements up to three times the documented bounds: the canonical encoding of the value, and an equal element left in
the argument. -/
theorem FeToBytes_spec {h : FE} (hh : Bd 3 h) :
    (FeToBytes h).1.length = 32 ∧ (leNat (FeToBytes h).1 : Int) = fval h % fieldP ∧ Canon (FeToBytes h).2 ∧
      fval (FeToBytes h).2 = fval h % fieldP := by
  have hq := toBytesQ_eq hh
  have hr := fval_bd hh
  have hq4 : -5 ≤ fval h / fieldP ∧ fval h / fieldP ≤ 4 := by
    rw [fieldP_int]
    norm_num at *
    omega
  have hdm := Int.mul_ediv_add_emod (fval h) fieldP
  have hrl := Int.emod_nonneg (fval h) (b := (fieldP : Int)) (by decide +kernel)
  have hru := Int.emod_lt_of_pos (fval h) (b := (fieldP : Int)) (by decide +kernel)
  have hw := hh.within
  obtain ⟨f0, f1, f2, f3, f4, f5, f6, f7, f8, f9, rfl⟩ := len10 hh.length
  generalize hV : fval [f0, f1, f2, f3, f4, f5, f6, f7, f8, f9] = V at *
  generalize hQ : V / (fieldP : Int) = Q at *
  generalize hR : V % (fieldP : Int) = R at *
  have h0 := natAbs_bd (Bd_iff.1 hh).1
  have w1 : wrap 32 (19 * Q) = 19 * Q := wrap_id (by norm_num; omega) (by norm_num; omega) (by decide)
  have w2 : wrap 32 (f0 + 19 * Q) = f0 + 19 * Q := wrap_id (by norm_num at *; omega) (by norm_num at *; omega) (by decide)
  unfold FeToBytes
  dsimp only
  rw [hq, w1, show lget [f0, f1, f2, f3, f4, f5, f6, f7, f8, f9] 0 = f0 from rfl, w2, show [f0, f1, f2, f3, f4, f5, f6, f7, f8, f9].set 0 (f0 + 19 * Q) ++ [0] = [f0 + 19 * Q, f1, f2, f3, f4, f5, f6, f7, f8, f9, 0] from rfl]
  have hi : Within toBytesIv [f0 + 19 * Q, f1, f2, f3, f4, f5, f6, f7, f8, f9, 0] := by
    refine ⟨rfl, fun i hi => ?_⟩
    match i, hi with
    | 0, _ =>
      show -(3 * 36909875 + 100) ≤ f0 + 19 * Q ∧ f0 + 19 * Q ≤ 3 * 36909875 + 100
      norm_num at h0
      omega
    | 1, _ => exact hw.get 1
    | 2, _ => exact hw.get 2
    | 3, _ => exact hw.get 3
    | 4, _ => exact hw.get 4
    | 5, _ => exact hw.get 5
    | 6, _ => exact hw.get 6
    | 7, _ => exact hw.get 7
    | 8, _ => exact hw.get 8
    | 9, _ => exact hw.get 9
    | 10, _ => exact ⟨Int.le_refl _, Int.le_refl _⟩
  have hd : dot (feW ++ [2 ^ 255]) [f0 + 19 * Q, f1, f2, f3, f4, f5, f6, f7, f8, f9, 0] = V + 19 * Q := by
    rw [← hV]
    simp only [fval, feW, dot, List.cons_append, List.nil_append]
    ring
  generalize [f0 + 19 * Q, f1, f2, f3, f4, f5, f6, f7, f8, f9, 0] = s at *
  have hb := toBytes_bounds
  split at hb
  · cases hb
  rename_i J hJ
  obtain ⟨e, hwi⟩ := bounds_sound (by decide) toBytesOps toBytesIv J s hJ hi
  replace hwi := hwi.mono hb
  have hk := execZ_keeps (w := feW ++ [2 ^ 255]) (M := 0) toBytesOps s (by rw [hi.1]; decide) toBytes_keeps
  rw [e]
  generalize execZ s toBytesOps = t at *
  have hk : dot (feW ++ [2 ^ 255]) t = V + 19 * Q := by
    have := Int.zero_dvd.1 hk
    omega
  have hlen : t.length = 11 := by rw [hwi.1]; rfl
  match t, hlen with
  | [t0, t1, t2, t3, t4, t5, t6, t7, t8, t9, t10], _ =>
  have ht : (List.take 10 [t0, t1, t2, t3, t4, t5, t6, t7, t8, t9, t10] : Limbs) = [t0, t1, t2, t3, t4, t5, t6, t7, t8, t9] := rfl
  rw [ht]
  have b0 : 0 ≤ t0 ∧ t0 ≤ 2 ^ 26 - 1 := hwi.get 0
  have b1 : 0 ≤ t1 ∧ t1 ≤ 2 ^ 25 - 1 := hwi.get 1
  have b2 : 0 ≤ t2 ∧ t2 ≤ 2 ^ 26 - 1 := hwi.get 2
  have b3 : 0 ≤ t3 ∧ t3 ≤ 2 ^ 25 - 1 := hwi.get 3
  have b4 : 0 ≤ t4 ∧ t4 ≤ 2 ^ 26 - 1 := hwi.get 4
  have b5 : 0 ≤ t5 ∧ t5 ≤ 2 ^ 25 - 1 := hwi.get 5
  have b6 : 0 ≤ t6 ∧ t6 ≤ 2 ^ 26 - 1 := hwi.get 6
  have b7 : 0 ≤ t7 ∧ t7 ≤ 2 ^ 25 - 1 := hwi.get 7
  have b8 : 0 ≤ t8 ∧ t8 ≤ 2 ^ 26 - 1 := hwi.get 8
  have b9 : 0 ≤ t9 ∧ t9 ≤ 2 ^ 25 - 1 := hwi.get 9
  have hc : Canon [t0, t1, t2, t3, t4, t5, t6, t7, t8, t9] := by
    refine ⟨rfl, fun i hi => ?_⟩
    match i, hi with
    | 0, _ => exact ⟨b0.1, Int.lt_of_le_sub_one b0.2⟩
    | 1, _ => exact ⟨b1.1, Int.lt_of_le_sub_one b1.2⟩
    | 2, _ => exact ⟨b2.1, Int.lt_of_le_sub_one b2.2⟩
    | 3, _ => exact ⟨b3.1, Int.lt_of_le_sub_one b3.2⟩
    | 4, _ => exact ⟨b4.1, Int.lt_of_le_sub_one b4.2⟩
    | 5, _ => exact ⟨b5.1, Int.lt_of_le_sub_one b5.2⟩
    | 6, _ => exact ⟨b6.1, Int.lt_of_le_sub_one b6.2⟩
    | 7, _ => exact ⟨b7.1, Int.lt_of_le_sub_one b7.2⟩
    | 8, _ => exact ⟨b8.1, Int.lt_of_le_sub_one b8.2⟩
    | 9, _ => exact ⟨b9.1, Int.lt_of_le_sub_one b9.2⟩
  have hlow : 0 ≤ fval [t0, t1, t2, t3, t4, t5, t6, t7, t8, t9] ∧ fval [t0, t1, t2, t3, t4, t5, t6, t7, t8, t9] < 2 ^ 255 := by
    simp only [fval, dot, feW]
    norm_num at *
    omega
  have hsplit : dot (feW ++ [2 ^ 255]) [t0, t1, t2, t3, t4, t5, t6, t7, t8, t9, t10] = fval [t0, t1, t2, t3, t4, t5, t6, t7, t8, t9] + 2 ^ 255 * t10 := by
    simp only [fval, feW, dot, List.cons_append, List.nil_append]
    ring
  have hval : fval [t0, t1, t2, t3, t4, t5, t6, t7, t8, t9] = R := by
    rw [hsplit] at hk
    rw [fieldP_int] at hdm hru
    generalize fval [t0, t1, t2, t3, t4, t5, t6, t7, t8, t9] = W at *
    norm_num at *
    omega
  refine ⟨rfl, ?_, hc, hval⟩
  rw [packField_eq hc.2]
  exact hval

end Cardano.Ed
