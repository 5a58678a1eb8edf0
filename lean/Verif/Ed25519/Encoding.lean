import Verif.Ed25519.GroupProof
/-!
# Encoding and decoding of points
-/
set_option autoImplicit false

namespace Cardano.Ed
open Curve

/-- The encoding of RFC 8032, section 5.1.2: 255 bits of `y`, then the parity of `x`. -/
def enc (P : Pt) : Bytes := leBytes 32 (P.y.val + 2 ^ 255 * (P.x.val % 2))

theorem enc_length (P : Pt) : (enc P).length = 32 := leBytes_length _ _

theorem F_val_lt (a : F) : a.val < 2 ^ 255 := Nat.lt_trans (ZMod.val_lt a) (by decide +kernel)

theorem leNat_enc (P : Pt) : leNat (enc P) = P.y.val + 2 ^ 255 * (P.x.val % 2) := by
  unfold enc
  rw [leNat_leBytes, Nat.mod_eq_of_lt]
  have h1 := F_val_lt P.y
  have h2 : P.x.val % 2 ≤ 1 := by omega
  calc P.y.val + 2 ^ 255 * (P.x.val % 2) < 2 ^ 255 + 2 ^ 255 * 1 := by
        exact Nat.add_lt_add_of_lt_of_le h1 (Nat.mul_le_mul_left _ h2)
    _ = 256 ^ 32 := by norm_num

/-! ## `ToBytes` -/

theorem set_last {s : Bytes} (h : s.length = 32) : ∃ (a : Bytes) (b : UInt8), a.length = 31 ∧ s = a ++ [b] := by
  refine ⟨s.take 31, s.getD 31 0, by simp [h], ?_⟩
  apply List.ext_getElem
  · simp [h]
  intro i h1 h2
  by_cases hi : i < 31
  · rw [List.getElem_append_left (by simp [h]; omega)]; simp
  · have : i = 31 := by omega
    subst this
    simp [h]

theorem flip_byte (v b : UInt8) (hv : v.toNat < 128) (hb : b.toNat < 2) : (v ^^^ (b <<< 7)).toNat = v.toNat + 128 * b.toNat := by
  have : b = 0 ∨ b = 1 := by
    rcases Nat.lt_succ_iff_lt_or_eq.1 hb with h | h
    · left; exact UInt8.toNat_inj.1 (by simpa using h)
    · right; exact UInt8.toNat_inj.1 (by simpa using h)
  rcases this with rfl | rfl
  · simp
  · revert v
    exact forall_byte (by decide +kernel)

theorem flipTop_eq {s : Bytes} {b : UInt8} (h : s.length = 32) (hs : leNat s < 2 ^ 255) (hb : b.toNat < 2) :
    (flipTop s b).length = 32 ∧ leNat (flipTop s b) = leNat s + 2 ^ 255 * b.toNat := by
  obtain ⟨a, v, ha, rfl⟩ := set_last h
  have e : flipTop (a ++ [v]) b = a ++ [v ^^^ (b <<< 7)] := by
    unfold flipTop
    rw [List.getD_eq_getElem?_getD, List.getElem?_append_right (by omega), List.set_append_right _ _ (by omega), ha]
    rfl
  rw [e]
  refine ⟨by simp [ha], ?_⟩
  rw [leNat_append] at hs ⊢
  rw [leNat_append, ha] at *
  simp only [leNat, Nat.mul_zero, Nat.add_zero] at *
  have hv : v.toNat < 128 := by
    by_contra hc
    have : 256 ^ 31 * 128 ≤ 256 ^ 31 * v.toNat := Nat.mul_le_mul_left _ (by omega)
    norm_num at *
    omega
  rw [flip_byte v b hv hb]
  ring

attribute [local irreducible] FeMul FeSquare FeSquare2 FeAdd FeSub FeNeg FeInvert fePow22523 FeToBytes FeFromBytes Bd fz FeIsNegative
  FeIsNonZero

theorem affine_toBytes {X Y Z : FE} {P : Pt} (bX : Bd 3 X) (bY : Bd 3 Y) (bZ : Bd 3 Z) (z : fz Z ≠ 0) (x : fz X = P.x * fz Z)
    (y : fz Y = P.y * fz Z) :
    flipTop (FeToBytes (FeMul Y (FeInvert Z))).1 (FeIsNegative (FeMul X (FeInvert Z))).1 = enc P := by
  have bi := (FeInvert_bd bZ).mono (n := 3) (by decide)
  have bx := (FeMul_spec bX bi).1.mono (n := 3) (by decide)
  have byy := (FeMul_spec bY bi).1.mono (n := 3) (by decide)
  have ex : fz (FeMul X (FeInvert Z)) = P.x := by rw [fz_mul bX bi, fz_invert bZ, x, mul_assoc, mul_inv_cancel₀ z, mul_one]
  have ey : fz (FeMul Y (FeInvert Z)) = P.y := by rw [fz_mul bY bi, fz_invert bZ, y, mul_assoc, mul_inv_cancel₀ z, mul_one]
  have hn := isNegative_eq bx
  have hv := toBytes_val byy
  rw [ex] at hn
  rw [ey] at hv
  obtain ⟨l, v⟩ := flipTop_eq (toBytes_length byy) (by rw [hv]; exact F_val_lt _) (b := (FeIsNegative (FeMul X (FeInvert Z))).1)
    (by rw [hn]; omega)
  exact leNat_inj (l.trans (enc_length P).symm) (by rw [v, hv, hn, leNat_enc])

theorem Ext.toBytes_eq {p : Ext} {P : Pt} (h : ExtRep p P) : p.ToBytes = enc P :=
  affine_toBytes (h.bX.mono (by decide)) (h.bY.mono (by decide)) (h.bZ.mono (by decide)) h.z h.x h.y

theorem Proj.toBytes_eq {p : Proj} {P : Pt} (h : ProjRep p P) : p.ToBytes = enc P :=
  affine_toBytes (h.bX.mono (by decide)) (h.bY.mono (by decide)) (h.bZ.mono (by decide)) h.z h.x h.y

/-! ## Encodings determine points -/

theorem v_ne (y : F) : cd * y ^ 2 + 1 ≠ 0 := by
  intro h
  by_cases hy : y = 0
  · rw [hy] at h; simp at h
  · refine cd_nonsquare (ci / y) ?_
    rw [div_mul_div_comm, ci_sq, div_eq_iff (mul_ne_zero hy hy)]
    linear_combination -h

theorem on_iff {x y : F} : On cd x y ↔ (cd * y ^ 2 + 1) * x ^ 2 = y ^ 2 - 1 := by
  unfold On
  constructor <;> intro h
  · linear_combination -h
  · linear_combination -h

theorem F_odd_neg {a : F} (h : a ≠ 0) : (-a).val % 2 = 1 - a.val % 2 := by
  have : NeZero a := ⟨h⟩
  rw [ZMod.val_neg_of_ne_zero]
  have h1 := ZMod.val_lt a
  have h2 : a.val ≠ 0 := fun e => h ((ZMod.val_eq_zero a).1 e)
  have h3 : fieldP % 2 = 1 := by decide +kernel
  omega

theorem enc_inj {P Q : Pt} (h : enc P = enc Q) : P = Q := by
  have h := congrArg leNat h
  rw [leNat_enc, leNat_enc] at h
  have h1 := F_val_lt P.y
  have h2 := F_val_lt Q.y
  have hy : P.y.val = Q.y.val ∧ P.x.val % 2 = Q.x.val % 2 := by
    have a : P.x.val % 2 < 2 := Nat.mod_lt _ (by decide)
    have b : Q.x.val % 2 < 2 := Nat.mod_lt _ (by decide)
    generalize P.x.val % 2 = e at *
    generalize Q.x.val % 2 = f at *
    generalize P.y.val = g at *
    generalize Q.y.val = k at *
    norm_num at *
    omega
  have ey : P.y = Q.y := ZMod.val_injective _ hy.1
  have p1 := on_iff.1 P.on
  have p2 := on_iff.1 Q.on
  rw [← ey] at p2
  have e : P.x ^ 2 = Q.x ^ 2 := mul_left_cancel₀ (v_ne P.y) (p1.trans p2.symm)
  rcases sq_eq_sq_iff_eq_or_eq_neg.1 e with h | h
  · exact Pt.ext h ey
  · by_cases h0 : Q.x = 0
    · exact Pt.ext (by rw [h, h0, neg_zero]) ey
    · have := F_odd_neg h0
      rw [← h] at this
      omega

/-! ## `FromBytes` -/

/-- Lines 727-736: the candidate for `x`. -/
def candidate (u v : FE) : FE :=
  FeMul (FeMul (fePow22523 (FeMul (FeMul (FeSquare (FeMul (FeSquare v) v)) v) u)) (FeMul (FeSquare v) v)) u

/-- Lines 756-761. -/
def finish (s : Bytes) (Y X : FE) : Option Ext :=
  let X' := (FeIsNegative X).2
  let X'' := if (FeIsNegative X).1 ≠ goShr8 (s.getD 31 0) 7 then FeNeg X' else X'
  some ⟨X'', Y, FeOne, FeMul X'' Y⟩

theorem FromBytes_unfold (s : Bytes) : Ext.FromBytes s =
    (let Y := FeFromBytes s
     let u := FeSub (FeSquare Y) FeOne
     let v := FeAdd (FeMul (FeSquare Y) d) FeOne
     let X := candidate u v
     let vxx := FeMul (FeSquare X) v
     if (FeIsNonZero (FeSub vxx u)).1 = 1 then
       if (FeIsNonZero (FeAdd vxx u)).1 = 1 then none
       else finish s Y (FeToBytes (FeMul X SqrtM1)).2
     else finish s Y X) := rfl

theorem candidate_spec {u v : FE} (hu : Bd 2 u) (hv : Bd 2 v) : Bd 1 (candidate u v) ∧
    fz (candidate u v) = (fz u * fz v ^ 7) ^ ((fieldP - 5) / 8) * fz v ^ 3 * fz u := by
  have bu := hu.mono (n := 3) (by decide)
  have bv := hv.mono (n := 3) (by decide)
  have s1 := (FeSquare_spec bv).1.mono (n := 3) (by decide)
  have v3 := (FeMul_spec s1 bv).1.mono (n := 3) (by decide)
  have s2 := (FeSquare_spec v3).1.mono (n := 3) (by decide)
  have m2 := (FeMul_spec s2 bv).1.mono (n := 3) (by decide)
  have m3 := (FeMul_spec m2 bu).1.mono (n := 3) (by decide)
  have pw := pow22523_pow m3
  have m4 := (FeMul_spec (pw.bd.mono (by decide)) v3).1.mono (n := 3) (by decide)
  refine ⟨(FeMul_spec m4 bu).1, ?_⟩
  unfold candidate
  rw [fz_mul m4 bu, fz_mul (pw.bd.mono (by decide)) v3, pw.eq, fz_mul m2 bu, fz_mul s2 bv, fz_sq v3, fz_mul s1 bv, fz_sq bv]
  rw [show fz v * fz v * fz v * (fz v * fz v * fz v) * fz v * fz u = fz u * fz v ^ 7 by ring, show fz v * fz v * fz v = fz v ^ 3 by ring]

/-- The square-root computation: with `w = (u v^7)^((p-1)/4)`, `v x^2 = u w`, and `w` is `1` or `-1` exactly when `u/v` is a square. -/
theorem root_eq (u v : F) : v * ((u * v ^ 7) ^ ((fieldP - 5) / 8) * v ^ 3 * u) ^ 2 = u * (u * v ^ 7) ^ ((fieldP - 1) / 4) := by
  have h : (fieldP - 1) / 4 = (fieldP - 5) / 8 * 2 + 1 := by decide +kernel
  rw [h]
  generalize (fieldP - 5) / 8 = n
  rw [pow_succ (u * v ^ 7), pow_mul (u * v ^ 7)]
  ring

theorem root_cases {u v x : F} (hv : v ≠ 0) (hx : v * x ^ 2 = u) (hu : u ≠ 0) :
    (u * v ^ 7) ^ ((fieldP - 1) / 4) = 1 ∨ (u * v ^ 7) ^ ((fieldP - 1) / 4) = -1 := by
  have hx0 : x ≠ 0 := fun h => hu (by rw [← hx, h]; ring)
  have e : (u * v ^ 7) ^ ((fieldP - 1) / 4) = (v ^ 4 * x) ^ ((fieldP - 1) / 2) := by
    have h : (fieldP - 1) / 2 = 2 * ((fieldP - 1) / 4) := by decide +kernel
    rw [h, pow_mul, ← hx]
    congr 1; ring
  rw [e]
  refine mul_self_eq_one_iff.1 ?_
  rw [← sq, ← pow_mul, show (fieldP - 1) / 2 * 2 = fieldP - 1 by decide +kernel]
  exact ZMod.pow_card_sub_one_eq_one (mul_ne_zero (pow_ne_zero _ hv) hx0)

/-- The sign bit. -/
theorem top_bit {s : Bytes} (h : s.length = 32) : (goShr8 (s.getD 31 0) 7).toNat = leNat s / 2 ^ 255 := by
  obtain ⟨a, v, ha, rfl⟩ := set_last h
  have hl := leNat_lt a
  have e : (a ++ [v]).getD 31 0 = v := by
    rw [List.getD_eq_getElem?_getD, List.getElem?_append_right (by omega), ha]; rfl
  rw [goShr8_toNat, leNat_append, e, ha]
  rw [ha] at hl
  simp only [leNat, Nat.mul_zero, Nat.add_zero]
  generalize leNat a = n at *
  have hv := UInt8.toNat_lt v
  generalize v.toNat = m at *
  norm_num at *
  omega

theorem finish_spec {s : Bytes} (hs : s.length = 32) {Y X : FE} {x : F} (bY : Bd 1 Y) (bX : Bd 3 X) (eX : fz X = x)
    (on : On cd x (fz Y)) :
    ∃ (e : Ext) (P : Pt), finish s Y X = some e ∧ ExtRep e P ∧ P.y = fz Y ∧ (P.x = x ∨ P.x = -x) ∧
      (P.x ≠ 0 → P.x.val % 2 = leNat s / 2 ^ 255) := by
  have hn := isNegative_eq bX
  have b2 := isNegative_bd bX
  have e2 := isNegative_fz bX
  have ht := top_bit hs
  have tl : leNat s / 2 ^ 255 < 2 := by
    have := leNat_lt s
    rw [hs] at this
    generalize leNat s = n at *
    norm_num at *
    omega
  rw [eX] at hn e2
  have hneq : (FeIsNegative X).1 ≠ goShr8 (s.getD 31 0) 7 ↔ x.val % 2 ≠ leNat s / 2 ^ 255 := by
    rw [← hn, ← ht]
    exact not_congr UInt8.toNat_inj.symm
  by_cases hc : x.val % 2 = leNat s / 2 ^ 255
  · refine ⟨_, ⟨x, fz Y, on⟩, rfl, ?_, rfl, Or.inl rfl, fun _ => hc⟩
    rw [if_neg (fun h => hneq.1 h hc)]
    exact ⟨b2, bY, one_bd, (FeMul_spec (b2.mono (by decide)) (bY.mono (by decide))).1, by show fz FeOne ≠ 0; rw [fz_one]; exact one_ne_zero,
      by show fz (FeIsNegative X).2 = x * fz FeOne; rw [fz_one, e2, mul_one], by show fz Y = fz Y * fz FeOne; rw [fz_one, mul_one],
      by show fz (FeMul _ Y) = x * fz Y * fz FeOne; rw [fz_mul (b2.mono (by decide)) (bY.mono (by decide)), fz_one, e2, mul_one]⟩
  · have b3 := (FeNeg_spec b2 (by decide)).1
    have e3 := fz_neg b2 (by decide)
    rw [e2] at e3
    refine ⟨_, ⟨-x, fz Y, by unfold On at *; linear_combination on⟩, rfl, ?_, rfl, Or.inr rfl, fun h => ?_⟩
    · rw [if_pos (hneq.2 hc)]
      exact ⟨b3, bY, one_bd, (FeMul_spec (b3.mono (by decide)) (bY.mono (by decide))).1, by show fz FeOne ≠ 0; rw [fz_one]; exact one_ne_zero,
        by show fz (FeNeg (FeIsNegative X).2) = -x * fz FeOne; rw [fz_one, e3, mul_one],
        by show fz Y = fz Y * fz FeOne; rw [fz_one, mul_one],
        by show fz (FeMul _ Y) = -x * fz Y * fz FeOne
           rw [fz_mul (b3.mono (by decide)) (bY.mono (by decide)), fz_one, e3, mul_one]⟩
    · have h0 : x ≠ 0 := fun e => h (by show -x = 0; rw [e, neg_zero])
      show (-x).val % 2 = _
      rw [F_odd_neg h0]
      omega

/-- Everything about `FromBytes`. -/
theorem FromBytes_spec {s : Bytes} (hs : s.length = 32) :
    (∃ (e : Ext) (P : Pt), Ext.FromBytes s = some e ∧ ExtRep e P ∧ P.y = ((leNat s % 2 ^ 255 : Nat) : F) ∧
      (P.x ≠ 0 → P.x.val % 2 = leNat s / 2 ^ 255)) ∨
    (Ext.FromBytes s = none ∧ ∀ P : Pt, P.y ≠ ((leNat s % 2 ^ 255 : Nat) : F)) := by
  rw [FromBytes_unfold]
  have ey := fz_fromBytes s
  have bY := (FeFromBytes_spec s).1
  generalize FeFromBytes s = Y at *
  dsimp only
  rw [← ey]
  have bY3 := bY.mono (n := 3) (by decide)
  have bsq := (FeSquare_spec bY3).1
  have bm := (FeMul_spec (bsq.mono (by decide)) (d_bd.mono (by decide))).1
  have bu := (FeSub_spec bsq one_bd (by decide)).1
  have bv := (FeAdd_spec bm one_bd (by decide)).1
  have eu : fz (FeSub (FeSquare Y) FeOne) = fz Y ^ 2 - 1 := by rw [fz_sub bsq one_bd (by decide), fz_sq bY3, fz_one, sq]
  have ev : fz (FeAdd (FeMul (FeSquare Y) d) FeOne) = cd * fz Y ^ 2 + 1 := by
    rw [fz_add bm one_bd (by decide), fz_mul (bsq.mono (by decide)) (d_bd.mono (by decide)), fz_sq bY3, fz_one, fz_d]; ring
  generalize FeSub (FeSquare Y) FeOne = U at *
  generalize FeAdd (FeMul (FeSquare Y) d) FeOne = W at *
  obtain ⟨bc, ec⟩ := candidate_spec bu bv
  generalize candidate U W = X at *
  have hv0 : fz W ≠ 0 := by rw [ev]; exact v_ne _
  have bx3 := bc.mono (n := 3) (by decide)
  have bxx := (FeSquare_spec bx3).1
  have bw3 := bv.mono (n := 3) (by decide)
  have bvxx := (FeMul_spec (bxx.mono (by decide)) bw3).1
  have evxx : fz (FeMul (FeSquare X) W) = fz W * fz X ^ 2 := by rw [fz_mul (bxx.mono (by decide)) bw3, fz_sq bx3]; ring
  generalize FeMul (FeSquare X) W = V at *
  have n1 := isNonZero_eq (FeSub_spec bvxx bu (by decide)).1
  have n2 := isNonZero_eq (FeAdd_spec bvxx bu (by decide)).1
  rw [fz_sub bvxx bu (by decide), evxx] at n1
  rw [fz_add bvxx bu (by decide), evxx] at n2
  have hroot := root_eq (fz U) (fz W)
  rw [← ec] at hroot
  have honE : ∀ x : F, On cd x (fz Y) ↔ fz W * x ^ 2 = fz U := by intro x; rw [on_iff, ev, eu]
  by_cases h1 : fz W * fz X ^ 2 = fz U
  · rw [if_neg (by rw [n1, if_pos (by rw [h1, sub_self])]; decide)]
    left
    obtain ⟨e, P, a, b, c, -, f⟩ := finish_spec hs bY (bc.mono (by decide)) rfl ((honE _).2 h1)
    exact ⟨e, P, a, b, c, f⟩
  · rw [if_pos (by rw [n1, if_neg (fun h => h1 (sub_eq_zero.1 h))])]
    by_cases h2 : fz W * fz X ^ 2 = -fz U
    · rw [if_neg (by rw [n2, if_pos (by rw [h2, neg_add_cancel])]; decide)]
      left
      have bs := (FeMul_spec bx3 (SqrtM1_bd.mono (n := 3) (by decide))).1.mono (n := 3) (by decide)
      have es : fz (FeToBytes (FeMul X SqrtM1)).2 = fz X * ci := by
        rw [toBytes_fz bs, fz_mul bx3 (SqrtM1_bd.mono (by decide)), fz_SqrtM1]
      have hci := ci_sq
      obtain ⟨e, P, a, b, c, -, f⟩ := finish_spec hs bY ((toBytes_bd bs).mono (by decide)) es
        ((honE _).2 (by linear_combination fz W * fz X ^ 2 * hci - h2))
      exact ⟨e, P, a, b, c, f⟩
    · rw [if_pos (by rw [n2, if_neg (fun h => h2 (add_eq_zero_iff_eq_neg.1 h))])]
      right
      refine ⟨rfl, fun P hP => ?_⟩
      have hon : fz W * P.x ^ 2 = fz U := (honE P.x).1 (by rw [← hP]; exact P.on)
      by_cases hu0 : fz U = 0
      · refine h1 ?_
        rw [hroot, hu0, zero_mul]
      · rcases root_cases hv0 hon hu0 with h | h
        · exact h1 (by rw [hroot, h, mul_one])
        · exact h2 (by rw [hroot, h, mul_neg, mul_one])

/-- Decoding an encoded point. -/
theorem FromBytes_enc (P : Pt) : ∃ e, Ext.FromBytes (enc P) = some e ∧ ExtRep e P := by
  have hy : leNat (enc P) % 2 ^ 255 = P.y.val := by
    rw [leNat_enc, Nat.add_mul_mod_self_left, Nat.mod_eq_of_lt (F_val_lt _)]
  have hx : leNat (enc P) / 2 ^ 255 = P.x.val % 2 := by
    rw [leNat_enc, Nat.add_mul_div_left _ _ (by positivity), Nat.div_eq_of_lt (F_val_lt _), Nat.zero_add]
  rcases FromBytes_spec (enc_length P) with ⟨e, Q, h1, h2, h3, h4⟩ | ⟨_, h⟩
  · rw [hy, ZMod.natCast_zmod_val] at h3
    rw [hx] at h4
    refine ⟨e, h1, ?_⟩
    have : Q = P := by
      have p1 := on_iff.1 P.on
      have p2 := on_iff.1 Q.on
      rw [h3] at p2
      have e : Q.x ^ 2 = P.x ^ 2 := mul_left_cancel₀ (v_ne P.y) (p2.trans p1.symm)
      rcases sq_eq_sq_iff_eq_or_eq_neg.1 e with h | h
      · exact Pt.ext h h3
      · by_cases h0 : P.x = 0
        · exact Pt.ext (by rw [h, h0, neg_zero]) h3
        · have h5 := F_odd_neg h0
          rw [← h, h4 (by rw [h]; exact neg_ne_zero.2 h0)] at h5
          omega
    rw [← this]; exact h2
  · exact absurd (by rw [hy, ZMod.natCast_zmod_val]) (h P)

end Cardano.Ed
