import Verif.Bip32.Accesses
import Verif.Bip32.Sign
import Verif.Ed25519.PointersProof
import Verif.Ed25519.ScalarProof
/-!
# What the programs of `Accesses.lean` compute

Run alone on a memory with the tables of the package, they leave in the arrays what the functions of `Keys.lean` and `Sign.lean` return.
-/
set_option autoImplicit false

namespace Cardano.Bip32.Acc
open Ed Ed.Ptr Ed.Ptr.Prog Ed.Ptr.P

variable {α β : Type}

/-- The `n` bytes from index `i` on of an array. -/
def bytes (m : Mem) (o i n : Nat) : Bytes := (List.range n).map fun j => UInt8.ofNat (m.cell o 0 (i + j)).toNat

theorem bytes_length (m : Mem) (o i n : Nat) : (bytes m o i n).length = n := by simp [bytes]

theorem bytes_getD (m : Mem) (o i n j : Nat) (h : j < n) : (bytes m o i n).getD j 0 = UInt8.ofNat (m.cell o 0 (i + j)).toNat := by
  simp [bytes, h, List.getD_eq_getElem?_getD]

theorem bytes_add (m : Mem) (o i n k : Nat) : bytes m o i (n + k) = bytes m o i n ++ bytes m o (i + n) k := by
  simp only [bytes, List.range_add, List.map_append, List.map_map]
  congr 1
  exact List.map_congr_left fun j _ => by simp [Nat.add_assoc]

theorem bytes_succ (m : Mem) (o i n : Nat) : bytes m o i (n + 1) = UInt8.ofNat (m.cell o 0 i).toNat :: bytes m o (i + 1) n := by
  rw [Nat.add_comm, bytes_add]; rfl

theorem bytes_congr {m m' : Mem} {o i n : Nat} (h : ∀ j < n, m'.cell o 0 (i + j) = m.cell o 0 (i + j)) : bytes m' o i n = bytes m o i n :=
  List.map_congr_left fun j hj => by rw [h j (List.mem_range.mp hj)]

theorem bytes_ext {m : Mem} {o i n : Nat} {l : Bytes} (hl : l.length = n) (h : ∀ j < n, UInt8.ofNat (m.cell o 0 (i + j)).toNat = l.getD j 0) : bytes m o i n = l := by
  refine List.ext_getElem (by rw [bytes_length, hl]) fun j h1 h2 => ?_
  simp only [bytes_length] at h1
  have := h j h1
  simp only [bytes, List.getElem_map, List.getElem_range, this, List.getD_eq_getElem?_getD, List.getElem?_eq_getElem h2, Option.getD_some]

/-- No object but `w` has changed, among those there were. -/
def Frame (m m' : Mem) (w : Nat) : Prop := m.next ≤ m'.next ∧ ∀ o f i, o < m.next → o ≠ w → m'.cell o f i = m.cell o f i

/-- No object but `w` has changed. -/
def Keeps (m m' : Mem) (w : Nat) : Prop := ∀ o f i, o ≠ w → m'.cell o f i = m.cell o f i

theorem Keeps.frame {m m' : Mem} {w : Nat} (h : Keeps m m' w) (hn : m'.next = m.next) : Frame m m' w := ⟨Nat.le_of_eq hn.symm, fun o f i _ ho => h o f i ho⟩

theorem Keeps.bytes {m m' : Mem} {w : Nat} (h : Keeps m m' w) {o i n : Nat} (hw : o ≠ w) : bytes m' o i n = Acc.bytes m o i n :=
  bytes_congr fun _ _ => h _ _ _ hw

theorem Keeps.fe {m m' : Mem} {w : Nat} (h : Keeps m m' w) {o f : Nat} (hw : o ≠ w) : m'.fe (o, f) = m.fe (o, f) := List.map_congr_left fun i _ => h o f i hw

theorem Frame.bytes {m m' : Mem} {w : Nat} (h : Frame m m' w) {o i n : Nat} (ho : o < m.next) (hw : o ≠ w) : bytes m' o i n = Acc.bytes m o i n :=
  bytes_congr fun _ _ => h.2 _ _ _ ho hw

theorem Frame.only {m m' : Mem} {w : Nat} (h : Frame m m' w) : Only m m' w := ⟨h.1, fun o f ho hw => List.map_congr_left fun i _ => h.2 o f i ho hw⟩

theorem Frame.fe {m m' : Mem} {w : Nat} (h : Frame m m' w) (o f : Nat) (ho : o < m.next) (hw : o ≠ w) : m'.fe (o, f) = m.fe (o, f) := h.only.fe o f ho hw

theorem frame_of {w : Nat} {p : Prog α} (m : Mem) (h : ∀ P : Nat → Prop, P w → Same P p p) : Frame m (p.run m).2 w := by
  obtain ⟨h1, h2⟩ := (h (fun o => o = w ∨ m.next ≤ o) (.inl rfl)).keeps m fun o ho => .inr ho
  exact ⟨h1, fun o f i ho hw => h2 o f i (by omega)⟩

/-! ## Postconditions -/

/-- After the program `Q` holds of the result and the memory. -/
def Gives (p : Prog α) (m : Mem) (Q : α → Mem → Prop) : Prop := Q (p.run m).1 (p.run m).2

theorem gives_bind {p : Prog α} {g : α → Prog β} {m : Mem} {Q : β → Mem → Prop} (h : Gives p m fun a m' => Gives (g a) m' Q) : Gives (p >>= g) m Q := by
  unfold Gives; rw [run_bind]; exact h

theorem gives_pure {a : α} {m : Mem} {Q : α → Mem → Prop} (h : Q a m) : Gives (pure a) m Q := h

theorem gives_unit {p : Prog Unit} {m : Mem} {Q : Unit → Mem → Prop} (h : Q () (p.run m).2) : Gives p m Q := h

theorem Gives.imp {p : Prog α} {m : Mem} {Q R : α → Mem → Prop} (h : Gives p m Q) (hr : ∀ a m', Q a m' → R a m') : Gives p m R := hr _ _ h

theorem gives_decl {m : Mem} {Q : Nat → Mem → Prop} (h : ∀ m', m'.next = m.next + 1 → Frame m m' m.next → Q m.next m') : Gives decl m Q := by
  unfold Gives
  rw [run_decl]
  exact h _ rfl ⟨Nat.le_succ _, fun o f i ho _ => if_neg (by omega)⟩

theorem each_append {γ : Type} (body : γ → Prog Unit) (l l' : List γ) : each body (l ++ l') = (each body l >>= fun _ => each body l') := by
  induction l with
  | nil => rfl
  | cons x l ih => simp only [List.cons_append, each, ih, bind_assoc]

theorem gives_range {body : Nat → Prog Unit} {n : Nat} {m : Mem} (inv : Nat → Mem → Prop) (h0 : inv 0 m)
    (h : ∀ k < n, ∀ m', inv k m' → Gives (body k) m' fun _ m'' => inv (k + 1) m'') : Gives (each body (List.range n)) m fun _ m' => inv n m' := by
  induction n with
  | zero => exact h0
  | succ n ih =>
    rw [List.range_succ, each_append]
    refine gives_bind ((ih fun k hk => h k (by omega)).imp fun _ m' hm' => gives_bind ((h n (by omega) m' hm').imp fun _ m'' hm'' => ?_))
    exact hm''

theorem gives_rd {p : Loc} {i : Nat} {m : Mem} {Q : Int → Mem → Prop} (h : Q (m.cell p.1 p.2 i) m) : Gives (rd p i) m Q := h
theorem gives_wr {p : Loc} {i : Nat} {v : Int} {m : Mem} {Q : Unit → Mem → Prop} (h : Q () (m.wr p i v)) : Gives (wr p i v) m Q := h

theorem run_rdB (o i : Nat) (m : Mem) : (rdB o i).run m = (UInt8.ofNat (m.cell o 0 i).toNat, m) := rfl
theorem run_wrB (o i : Nat) (v : UInt8) (m : Mem) : (wrB o i v).run m = ((), m.wr (o, 0) i v.toNat) := rfl

theorem run_rdBs (o i n : Nat) (m : Mem) : (rdBs o i n).run m = (bytes m o i n, m) := by
  induction n generalizing i with
  | zero => rfl
  | succ n ih => simp only [rdBs, run_bind, run_rdB, ih, run_pure, bytes_succ]

theorem gives_rdBs {o i n : Nat} {m : Mem} {Q : Bytes → Mem → Prop} (h : Q (bytes m o i n) m) : Gives (rdBs o i n) m Q := by
  unfold Gives; rw [run_rdBs]; exact h

theorem byte_cell (v : UInt8) : UInt8.ofNat ((v.toNat : Nat) : Int).toNat = v := by simp

theorem gives_wrB {o i : Nat} {v : UInt8} {m : Mem} {Q : Unit → Mem → Prop} (h : Q () (m.wr (o, 0) i v.toNat)) : Gives (wrB o i v) m Q := h
theorem gives_rdB {o i : Nat} {m : Mem} {Q : UInt8 → Mem → Prop} (h : Q (UInt8.ofNat (m.cell o 0 i).toNat) m) : Gives (rdB o i) m Q := h

/-- Bytes written one after the other. -/
theorem gives_writes {o i n : Nat} {m : Mem} {body : Nat → Prog Unit} {l : Bytes} (hb : ∀ k < n, ∀ m', (∀ o' f' i', o' ≠ o → m'.cell o' f' i' = m.cell o' f' i') →
      (body k).run m' = ((), m'.wr (o, 0) (i + k) (l.getD k 0).toNat))
    {Q : Unit → Mem → Prop}
    (h : ∀ m', m'.next = m.next → Keeps m m' o → (l.length = n → bytes m' o i n = l) →
      (∀ j, j < i ∨ i + n ≤ j → m'.cell o 0 j = m.cell o 0 j) → Q () m') : Gives (each body (List.range n)) m Q := by
  refine (gives_range (fun k m' => m'.next = m.next ∧ (∀ o' f' i', o' ≠ o → m'.cell o' f' i' = m.cell o' f' i') ∧
    ∀ j, m'.cell o 0 j = if i ≤ j ∧ j < i + k then ((l.getD (j - i) 0).toNat : Int) else m.cell o 0 j)
    ⟨rfl, fun _ _ _ _ => rfl, fun j => (if_neg (by omega)).symm⟩ fun k hk m' ⟨h1, h2, h3⟩ => ?_).imp fun _ m' ⟨h1, h2, h3⟩ => ?_
  · unfold Gives
    rw [hb k hk m' h2]
    refine ⟨h1, fun o' f' i' ho => (if_neg fun hc => ho hc.1).trans (h2 _ _ _ ho), fun j => ?_⟩
    show (if o = o ∧ 0 = 0 ∧ j = i + k then _ else _) = _
    by_cases hj : j = i + k
    · rw [if_pos ⟨rfl, rfl, hj⟩, if_pos (by omega), hj, Nat.add_sub_cancel_left]
    · rw [if_neg (by simp [hj]), h3]
      by_cases hc : i ≤ j ∧ j < i + k
      · rw [if_pos hc, if_pos (by omega)]
      · rw [if_neg hc, if_neg (by omega)]
  · refine h m' h1 h2 (fun hl => bytes_ext hl fun j hj => ?_) fun j hj => (h3 j).trans (if_neg (by omega))
    rw [h3, if_pos (by omega), Nat.add_sub_cancel_left, byte_cell]

theorem gives_wrBs {o i n : Nat} {l : Bytes} {m : Mem} {Q : Unit → Mem → Prop}
    (h : ∀ m', m'.next = m.next → Keeps m m' o → (l.length = n → bytes m' o i n = l) →
      (∀ j, j < i ∨ i + n ≤ j → m'.cell o 0 j = m.cell o 0 j) → Q () m') : Gives (wrBs o i n l) m Q :=
  gives_writes (fun _ _ _ _ => rfl) h

theorem gives_copyB {dst i src j n : Nat} {m : Mem} {Q : Unit → Mem → Prop} (hd : src ≠ dst)
    (h : ∀ m', m'.next = m.next → Keeps m m' dst → bytes m' dst i n = bytes m src j n →
      (∀ k, k < i ∨ i + n ≤ k → m'.cell dst 0 k = m.cell dst 0 k) → Q () m') : Gives (copyB dst i src j n) m Q :=
  gives_writes (l := bytes m src j n)
    (fun k hk m' hm' => by
      simp only [run_bind, run_rdB, run_wrB]
      rw [hm' _ _ _ hd, bytes_getD _ _ _ _ _ hk])
    fun m' h1 h2 h3 h4 => h m' h1 h2 (h3 (bytes_length _ _ _ _)) h4

/-! ## The digits -/

theorem nibbles_lget (l : Bytes) (j : Nat) (h : j < l.length) :
    lget (nibbles l) (2 * j) = wrap 8 ((l.getD j 0 &&& 15).toNat) ∧ lget (nibbles l) (2 * j + 1) = wrap 8 ((l.getD j 0 >>> 4 &&& 15).toNat) := by
  induction l generalizing j with
  | nil => simp at h
  | cons v l ih =>
    cases j with
    | zero => simp only [nibbles, lget, Nat.mul_zero, Nat.zero_add, List.getD_cons_zero, List.getD_cons_succ, and_self]
    | succ j =>
      have := ih j (by simpa using h)
      rw [show 2 * (j + 1) = 2 * j + 1 + 1 by omega]
      simpa only [nibbles, lget, List.getD_cons_succ] using this

theorem nibbles_length (l : Bytes) : (nibbles l).length = 2 * l.length := by
  induction l with
  | nil => rfl
  | cons v l ih => simp only [nibbles, List.length_cons, ih]; omega

/-- The limbs of field 0 from index `i` on. -/
def limbsAt (m : Mem) (o i n : Nat) : List Int := (List.range n).map fun j => m.cell o 0 (i + j)

theorem limbsAt_succ (m : Mem) (o i n : Nat) : limbsAt m o i (n + 1) = m.cell o 0 i :: limbsAt m o (i + 1) n := by
  simp only [limbsAt, List.range_succ_eq_map, List.map_cons, List.map_map, Nat.add_zero]
  congr 1
  exact List.map_congr_left fun j _ => by simp only [Function.comp]; rw [show i + (j + 1) = i + 1 + j by omega]

theorem gives_splitE {e a : Nat} {m : Mem} (hd : a ≠ e) :
    Gives (splitE e a) m fun _ m' => m'.next = m.next ∧ limbsAt m' e 0 64 = nibbles (bytes m a 0 32) := by
  refine (gives_range (fun k m' => m'.next = m.next ∧ (∀ o' f' i', o' ≠ e → m'.cell o' f' i' = m.cell o' f' i') ∧
    ∀ j < 2 * k, m'.cell e 0 j = lget (nibbles (bytes m a 0 32)) j) ⟨rfl, fun _ _ _ _ => rfl, fun j hj => absurd hj (by omega)⟩ ?_).imp
    fun _ m' ⟨h1, _, h3⟩ => ⟨h1, ?_⟩
  · intro k hk m' ⟨h1, h2, h3⟩
    unfold Gives
    simp only [run_bind, run_rdB, run_wr]
    refine ⟨h1, fun o' f' i' ho => ?_, fun j hj => ?_⟩
    · simp only [Mem.wr, ho, false_and, if_false]; exact h2 _ _ _ ho
    · obtain ⟨n1, n2⟩ := nibbles_lget (bytes m a 0 32) k (by rw [bytes_length]; exact hk)
      rw [bytes_getD _ _ _ _ _ hk, Nat.zero_add] at n1 n2
      simp only [Mem.wr, h2 _ _ _ hd, true_and]
      by_cases hj1 : j = 2 * k + 1
      · rw [if_pos hj1, hj1, n2]
      · rw [if_neg hj1]
        by_cases hj0 : j = 2 * k
        · rw [if_pos hj0, hj0, n1]
        · rw [if_neg hj0]; exact h3 j (by omega)
  · refine List.ext_getElem (by rw [nibbles_length, bytes_length]; simp [limbsAt]) fun j hj1 hj2 => ?_
    simp only [limbsAt, List.length_map, List.length_range] at hj1
    simp only [limbsAt, List.getElem_map, List.getElem_range, Nat.zero_add]
    rw [h3 j (by omega)]
    simp [lget, hj2]

theorem gives_carryE {e : Nat} (n : Nat) : ∀ (i : Nat) (c : Int) (m : Mem),
    Gives (carryE e i n c >>= fun carry => rd (e, 0) (i + n) >>= fun x => wr (e, 0) (i + n) (wrap 8 (x + carry))) m fun _ m' =>
      m'.next = m.next ∧ limbsAt m' e i (n + 1) = recode c (limbsAt m e i (n + 1)) ∧ (∀ j < i, m'.cell e 0 j = m.cell e 0 j) := by
  induction n with
  | zero =>
    intro i c m
    refine ⟨rfl, ?_, fun j hj => ?_⟩
    · simp [limbsAt, recode, carryE, run_bind, run_rd, run_wr, Mem.wr]
    · simp only [carryE, run_bind, run_pure, run_rd, run_wr, Mem.wr]
      exact if_neg (by omega)
  | succ n ih =>
    intro i c m
    simp only [carryE, bind_assoc]
    refine gives_bind (gives_rd (gives_bind (gives_wr (gives_bind (gives_rd (gives_bind (gives_rd (gives_bind (gives_wr ?_)))))))))
    rw [show i + (n + 1) = i + 1 + n by omega]
    refine (ih (i + 1) _ _).imp fun _ m' ⟨h1, h2, h3⟩ => ⟨h1, ?_, fun j hj => ?_⟩
    · rw [limbsAt_succ, h2, h3 i (by omega), limbsAt_succ (m := m), limbsAt_succ (m := m), recode]
      have hl : ∀ v w : Int, limbsAt ((m.wr (e, 0) i v).wr (e, 0) i w) e (i + 1) (n + 1) = limbsAt m e (i + 1) (n + 1) := fun v w =>
        List.map_congr_left fun j _ => by simp only [Mem.wr]; rw [if_neg (by omega), if_neg (by omega)]
      rw [hl, limbsAt_succ (m := m)]
      simp [Mem.wr]
    · rw [h3 j (by omega)]
      simp only [Mem.wr]
      rw [if_neg (by omega), if_neg (by omega)]

theorem frame_digitsE (a : Nat) (m : Mem) : Frame m ((digitsE a).run m).2 m.next := frame_of m fun _ _ => (sameNew_digitsE a).same

theorem gives_digitsE {a : Nat} {m : Mem} (ha : a < m.next) :
    Gives (digitsE a) m fun e m' => e = m.next ∧ m'.next = m.next + 1 ∧ ∀ j < 64, m'.cell e 0 j = lget (recode 0 (nibbles (bytes m a 0 32))) j := by
  refine gives_bind (gives_decl fun m1 n1 F1 => gives_bind ((gives_splitE (by omega)).imp fun _ m2 ⟨n2, l2⟩ => ?_))
  have := gives_carryE (e := m.next) 63 0 0 m2
  have hp : (carryE m.next 0 63 0 >>= fun carry => rd (m.next, 0) 63 >>= fun x => wr (m.next, 0) 63 (wrap 8 (x + carry)) >>= fun _ => pure m.next) =
      ((carryE m.next 0 63 0 >>= fun carry => rd (m.next, 0) (0 + 63) >>= fun x => wr (m.next, 0) (0 + 63) (wrap 8 (x + carry))) >>= fun _ => pure m.next) := by
    simp only [bind_assoc, Nat.zero_add]
  rw [hp]
  refine gives_bind (this.imp fun _ m3 ⟨n3, l3, _⟩ => gives_pure ⟨rfl, by omega, fun j hj => ?_⟩)
  rw [l2, F1.bytes ha (by omega)] at l3
  rw [← l3]
  simp [lget, limbsAt, hj]

/-! ## Base point multiplication -/

theorem run_baseLoop_eq {e odd h t r : Nat} {d : List Int} (ho : odd < 2) (hh : h ≠ e) (ht : t ≠ e) (hr : r ≠ e) {m : Mem} (he : e < m.next)
    (hd : ∀ j < 64, m.cell e 0 j = lget d j) : (baseLoop e odd h t r).run m = (Ptr.P.baseLoop d odd h t r).run m := by
  unfold baseLoop Ptr.P.baseLoop
  have H : ∀ l : List Nat, (∀ x ∈ l, x < 32) → ∀ m : Mem, e < m.next → (∀ j < 64, m.cell e 0 j = lget d j) →
      (each (fun pos => do
        let x ← rd (e, 0) (2 * pos + odd)
        selectPoint t pos x
        geMixedAdd r h t
        toExtended r h) l).run m = (each (fun pos => do
        selectPoint t pos (lget d (2 * pos + odd))
        geMixedAdd r h t
        toExtended r h) l).run m := by
    intro l
    induction l with
    | nil => intros; rfl
    | cons x l ih =>
      intro hl m he hd
      simp only [each]
      obtain ⟨k1, k2⟩ := (show Same (fun o => o ≠ e) (selectPoint t x (lget d (2 * x + odd)) >>= fun _ => geMixedAdd r h t >>= fun _ => toExtended r h)
          (selectPoint t x (lget d (2 * x + odd)) >>= fun _ => geMixedAdd r h t >>= fun _ => toExtended r h) from
          same_bind (same_selectPoint ht) fun _ _ => same_bind (same_geMixedAdd hr) fun _ _ => same_toExtended hh).keeps m (fun o ho => by omega)
      have hb : (rd (e, 0) (2 * x + odd) >>= fun v => selectPoint t x v >>= fun _ => geMixedAdd r h t >>= fun _ => toExtended r h).run m =
          (selectPoint t x (lget d (2 * x + odd)) >>= fun _ => geMixedAdd r h t >>= fun _ => toExtended r h).run m := by
        rw [run_bind, run_rd]
        dsimp only
        rw [hd _ (by have := hl x List.mem_cons_self; omega)]
      rw [run_bind, hb]
      generalize (selectPoint t x (lget d (2 * x + odd)) >>= fun _ => geMixedAdd r h t >>= fun _ => toExtended r h) = q at k1 k2 ⊢
      rw [run_bind]
      refine ih (fun y hy => hl y (List.mem_cons_of_mem _ hy)) _ (Nat.lt_of_lt_of_le he k1) fun j hj => ?_
      rw [k2 _ _ _ (by simp), hd j hj]
  have hl : ∀ x ∈ List.range 32, x < 32 := fun x hx => List.mem_range.mp hx
  generalize List.range 32 = l at hl ⊢
  exact H l hl m he hd


theorem same_listLoop {P : Nat → Prop} {d : List Int} {odd h t r : Nat} (hh : P h) (ht : P t) (hr : P r) :
    Same P (Ptr.P.baseLoop d odd h t r) (Ptr.P.baseLoop d odd h t r) :=
  same_each fun _ _ => same_bind (same_selectPoint ht) fun _ _ => same_bind (same_geMixedAdd hr) fun _ _ => same_toExtended hh

/-- The memory holds the digits `d`. -/
def HasDigits (e : Nat) (d : List Int) (m : Mem) : Prop := e < m.next ∧ ∀ j < 64, m.cell e 0 j = lget d j

theorem run_step {e : Nat} {d : List Int} {p p' : Prog Unit} {g g' : Unit → Prog Unit} {m : Mem} (hm : HasDigits e d m) (hr : p.run m = p'.run m)
    (hp : Same (fun o => o ≠ e) p' p') (h : ∀ m', HasDigits e d m' → (g ()).run m' = (g' ()).run m') : (p >>= g).run m = (p' >>= g').run m := by
  rw [run_bind, hr]
  obtain ⟨k1, k2⟩ := hp.keeps m (fun o ho => by have := hm.1; omega)
  have := h _ ⟨Nat.lt_of_lt_of_le hm.1 k1, fun j hj => (k2 _ _ _ (by simp)).trans (hm.2 j hj)⟩
  rw [run_bind]
  exact this

theorem run_new {e : Nat} {d : List Int} {g g' : Nat → Prog Unit} {m : Mem} (hm : HasDigits e d m)
    (h : ∀ o m', o ≠ e → HasDigits e d m' → (g o).run m' = (g' o).run m') : (decl >>= g).run m = (decl >>= g').run m := by
  have h1 := hm.1
  have := h m.next m.new.2 (by omega) ⟨Nat.lt_succ_of_lt h1, fun j hj => (if_neg (by omega)).trans (hm.2 j hj)⟩
  rw [run_bind, run_decl]
  refine this.trans ?_
  rw [run_bind, run_decl]
  rfl

attribute [local irreducible] Prog.run Prog.bind Prog.each decl Ptr.P.extZero Ptr.P.baseLoop Acc.baseLoop Ptr.P.extDouble Ptr.P.complToProjective Ptr.P.projDouble Ptr.P.toExtended

theorem run_multE_eq {e h : Nat} {a : Bytes} (hh : h ≠ e) {m : Mem} (hm : HasDigits e (recode 0 (nibbles a)) m) :
    (multE e h).run m = (Ptr.P.GeScalarMultBase h a).run m := by
  unfold multE Ptr.P.GeScalarMultBase
  generalize recode 0 (nibbles a) = d at hm ⊢
  dsimp only
  refine run_step hm rfl (same_extZero hh) fun m hm => ?_
  refine run_new hm fun t m ht hm => ?_
  refine run_new hm fun r m hr hm => ?_
  refine run_step hm (run_baseLoop_eq (by omega) hh ht hr hm.1 hm.2) (same_listLoop hh ht hr) fun m hm => ?_
  refine run_new hm fun s m hs hm => ?_
  refine run_step hm rfl (same_extDouble hr) fun m hm => ?_
  refine run_step hm rfl (same_complToProjective hs) fun m hm => ?_
  refine run_step hm rfl (same_projDouble hr) fun m hm => ?_
  refine run_step hm rfl (same_complToProjective hs) fun m hm => ?_
  refine run_step hm rfl (same_projDouble hr) fun m hm => ?_
  refine run_step hm rfl (same_complToProjective hs) fun m hm => ?_
  refine run_step hm rfl (same_projDouble hr) fun m hm => ?_
  refine run_step hm rfl (same_toExtended hh) fun m hm => ?_
  exact run_baseLoop_eq (by omega) hh ht hr hm.1 hm.2

theorem gives_GeScalarMultBase {h a : Nat} {m : Mem} {Q : Unit → Mem → Prop} (g : Globals m) (hh : firstFree ≤ h) (hn : h < m.next) (ha : a < m.next)
    (hQ : ∀ m', Frame m m' h → m'.ext h = Ed.GeScalarMultBase (bytes m a 0 32) → Q () m') : Gives (GeScalarMultBase h a) m Q := by
  refine gives_unit (hQ _ (frame_of m fun P hP => same_GeScalarMultBase hP) ?_)
  unfold GeScalarMultBase
  rw [run_bind]
  have F := frame_digitsE a m
  obtain ⟨h1, h2, h3⟩ := gives_digitsE (m := m) ha
  generalize (digitsE a).run m = q at F h1 h2 h3 ⊢
  rw [run_multE_eq (by omega) ⟨by omega, h3⟩, run_GeScalarMultBase]
  exact (GeScalarMultBase_spec (g.only F.only g.free) hh (by omega)).2

/-! ## The bytes of a point -/

theorem set_eq {m m' : Mem} {s : Nat} {l : Bytes} {i n : Nat} {v : UInt8} (hl : l.length = n) (hm : bytes m s 0 n = l) (hi : i < n)
    (h : ∀ j, m'.cell s 0 j = if j = i then (v.toNat : Int) else m.cell s 0 j) : bytes m' s 0 n = l.set i v := by
  refine bytes_ext (by rw [List.length_set, hl]) fun j hj => ?_
  rw [Nat.zero_add, h]
  by_cases hc : j = i
  · subst hc
    rw [if_pos rfl, byte_cell]
    simp [List.getD_eq_getElem?_getD, hl, hj]
  · rw [if_neg hc, List.getD_eq_getElem?_getD, List.getElem?_set_ne (Ne.symm hc), ← List.getD_eq_getElem?_getD, ← hm, bytes_getD _ _ _ _ _ hj, Nat.zero_add]

theorem gives_run {p : Prog α} {m : Mem} {Q : α → Mem → Prop} {a : α} {m' : Mem} (h : p.run m = (a, m')) (hQ : Q a m') : Gives p m Q := by
  unfold Gives; rw [h]; exact hQ

theorem FeToBytes_bytes (f : FE) : (Ed.FeToBytes f).1.length = 32 := rfl

theorem gives_FeToBytes {s : Nat} {p : Loc} {m : Mem} {Q : Unit → Mem → Prop}
    (hQ : ∀ m', m'.next = m.next → (∀ o f i, o ≠ s → o ≠ p.1 → m'.cell o f i = m.cell o f i) → bytes m' s 0 32 = (Ed.FeToBytes (m.fe p)).1 → Q () m') :
    Gives (FeToBytes s p) m Q := by
  refine gives_bind (gives_run ((run_FeToBytes p m).trans (FeToBytes_eq p m)) ?_)
  refine gives_wrBs fun m' n1 k1 b1 _ => hQ m' n1 (fun o f i ho hp => ?_) (b1 (FeToBytes_bytes _))
  rw [k1 o f i ho]
  exact if_neg fun hc => hp hc.1

theorem gives_FeIsNegative {p : Loc} {m : Mem} {Q : UInt8 → Mem → Prop} (hp : p.1 < m.next)
    (hQ : ∀ m', (∀ o f i, o < m.next → o ≠ p.1 → m'.cell o f i = m.cell o f i) → Q (Ed.FeIsNegative (m.fe p)).1 m') :
    Gives (FeIsNegative p) m Q := by
  refine gives_bind (gives_decl fun m1 n1 F1 => gives_bind (gives_FeToBytes fun m2 n2 k2 b2 => gives_bind (gives_rdB (gives_pure ?_))))
  have hb : UInt8.ofNat (m2.cell m.next 0 0).toNat &&& 1 = (Ed.FeIsNegative (m.fe p)).1 := by
    rw [← Frame.fe F1 p.1 p.2 hp (by omega)]
    have := bytes_succ m2 m.next 0 31
    rw [b2] at this
    show _ = (Ed.FeToBytes (m1.fe p)).1.headD 0 &&& 1
    rw [this]
    rfl
  rw [hb]
  exact hQ m2 fun o f i h1 h2 => (k2 o f i (by omega) h2).trans (F1.2 o f i h1 (by omega))

/-- A postcondition together with what is not changed. -/
theorem gives_frame {p : Prog α} {m : Mem} {w : Nat} {C Q : α → Mem → Prop} (hp : ∀ P : Nat → Prop, P w → Same P p p) (h : Gives p m C)
    (hQ : ∀ a m', Frame m m' w → C a m' → Q a m') : Gives p m Q := hQ _ _ (frame_of m hp) h

theorem gives_FeMul {h f g : Loc} {m : Mem} {Q : Unit → Mem → Prop}
    (hQ : ∀ m', m'.next = m.next → (∀ q : Loc, q.1 ≠ h.1 → m'.fe q = m.fe q) → m'.fe h = Ed.FeMul (m.fe f) (m.fe g) → Q () m') : Gives (FeMul h f g) m Q :=
  gives_run ((run_FeMul h f g m).trans (congrArg _ (FeMul_eq h f g m)))
    (hQ _ rfl (fun _ hq => fe_put_other _ _ _ _ fun hc => hq (congrArg Prod.fst hc)) (fe_put_same _ _ _ (FeMul_length _ _)))

attribute [local irreducible] Ed.FeMul Ed.FeInvert Ed.FeToBytes Ptr.FeInvert Ptr.P.FeMul Ptr.P.FeInvert

theorem gives_toBytes {p s : Nat} {m : Mem} {Q : Unit → Mem → Prop} (hp : p < m.next) (hs : s < m.next)
    (hQ : ∀ m', Frame m m' s → bytes m' s 0 32 = (m.ext p).ToBytes → Q () m') : Gives (toBytes p s) m Q := by
  refine gives_frame (C := fun _ m' => bytes m' s 0 32 = (m.ext p).ToBytes) (fun P hP => same_toBytes hP) ?_ fun _ m' F b => hQ m' F b
  refine gives_bind (gives_decl fun m1 n1 F1 => gives_bind (gives_decl fun m2 n2 F2 => gives_bind (gives_decl fun m3 n3 F3 => ?_)))
  refine gives_bind (gives_run (run_FeInvert _ _ _) ?_)
  have hf : ∀ f, m3.fe (p, f) = m.fe (p, f) := fun f => by
    rw [F3.fe _ _ (by omega) (by omega), F2.fe _ _ (by omega) (by omega), F1.fe _ _ (by omega) (by omega)]
  have hi := FeInvert_spec (m := m3) (out := (m.next, 0)) (z := (p, 2)) (by show p < _; omega)
  have h0 := hi.2 (m.next, 0) (by show m.next < _; omega)
  have h1 : ∀ f, (Ptr.FeInvert (m.next, 0) (p, 2) m3).fe (p, f) = m.fe (p, f) := fun f => by
    rw [hi.2 (p, f) (by show p < _; omega), if_neg (by simp only [Prod.mk.injEq]; omega), hf]
  rw [if_pos rfl, hf] at h0
  have hn := hi.1
  clear hi
  generalize Ptr.FeInvert (m.next, 0) (p, 2) m3 = m4 at *
  refine gives_bind (gives_FeMul fun m5 n5 k5 v5 => gives_bind (gives_FeMul fun m6 n6 k6 v6 => ?_))
  have hx : m6.fe (m1.next, 0) = Ed.FeMul (m.ext p).X (Ed.FeInvert (m.ext p).Z) := by
    rw [k6 _ (by show m1.next ≠ m2.next; omega), v5, h0, h1]; rfl
  have hy : m6.fe (m2.next, 0) = Ed.FeMul (m.ext p).Y (Ed.FeInvert (m.ext p).Z) := by
    rw [v6, k5 _ (by show p ≠ m1.next; omega), k5 _ (by show m.next ≠ m1.next; omega), h0, h1]; rfl
  refine gives_bind (gives_FeToBytes fun m7 n7 k7 b7 => gives_bind (gives_FeIsNegative (by show m1.next < _; omega) fun m8 k8 => gives_bind (gives_rdB (gives_wrB ?_))))
  have hx7 : m7.fe (m1.next, 0) = m6.fe (m1.next, 0) := List.map_congr_left fun i _ => k7 _ _ _ (by omega) (by show m1.next ≠ m2.next; omega)
  have b8 : bytes m8 s 0 32 = (Ed.FeToBytes (m6.fe (m2.next, 0))).1 := by
    rw [← b7]; exact bytes_congr fun j _ => k8 _ _ _ (by omega) (by show s ≠ m1.next; omega)
  rw [hx7, hx]
  rw [hy] at b8
  show _ = flipTop _ _
  unfold flipTop
  refine set_eq (FeToBytes_bytes _) b8 (by omega) fun j => ?_
  show (if s = s ∧ 0 = 0 ∧ j = 31 then _ else _) = _
  rw [← b8, bytes_getD _ _ _ _ _ (by omega), Nat.zero_add]
  simp only [true_and]

/-! ## Scalars -/

/-- The value of a limb. -/
def limbVal (b : Bytes) (l : Limb) : Int :=
  ((if l.mask then 2097151 &&& ((if l.four then Ed.load4 b l.k else Ed.load3 b l.k) >>> l.shift) else (if l.four then Ed.load4 b l.k else Ed.load3 b l.k) >>> l.shift : Nat) : Int)

theorem run_limb {o n : Nat} {l : Limb} {m : Mem} (h : l.k + (if l.four then 4 else 3) ≤ n) : (limb o l).run m = (limbVal (bytes m o 0 n) l, m) := by
  have at8' : ∀ j < n, at8 (bytes m o 0 n) j = (UInt8.ofNat (m.cell o 0 j).toNat).toNat := fun j hj => by rw [at8, bytes_getD _ _ _ _ _ hj, Nat.zero_add]
  obtain ⟨four, k, shift, mask⟩ := l
  cases four
  · simp only [Bool.false_eq_true, if_false] at h
    simp only [limb, loads, load3, run_bind, run_rdB, run_pure, limbVal, Bool.false_eq_true, if_false, Ed.load3]
    rw [at8' _ (by omega), at8' _ (by omega), at8' _ (by omega)]
  · simp only [if_true] at h
    simp only [limb, loads, load4, run_bind, run_rdB, run_pure, limbVal, if_true, Ed.load4]
    rw [at8' _ (by omega), at8' _ (by omega), at8' _ (by omega), at8' _ (by omega)]

theorem run_limbs {o n : Nat} {t : List Limb} {m : Mem} (h : ∀ l ∈ t, l.k + (if l.four then 4 else 3) ≤ n) :
    (limbs o t).run m = (t.map (limbVal (bytes m o 0 n)), m) := by
  induction t with
  | nil => rw [limbs, run_pure]; rfl
  | cons l t ih =>
    rw [limbs, run_bind, run_limb (h l List.mem_cons_self), run_bind, ih fun x hx => h x (List.mem_cons_of_mem _ hx), run_pure]
    rfl

theorem table64_val (b : Bytes) : table64.map (limbVal b) = limbs64 b := by
  simp [table64, limbVal, limbs64]

theorem table32_val (b : Bytes) : table32.map (limbVal b) = limbs32 b := by
  simp [table32, limbVal, limbs32]

theorem run_limbs64 (o : Nat) (m : Mem) : (limbs o table64).run m = (limbs64 (bytes m o 0 64), m) := by
  rw [run_limbs (n := 64) (by simp [table64]), table64_val]

theorem run_limbs32 (o : Nat) (m : Mem) : (limbs o table32).run m = (limbs32 (bytes m o 0 32), m) := by
  rw [run_limbs (n := 32) (by simp [table32]), table32_val]

attribute [local irreducible] exec packScalar

theorem gives_ScReduce {out x : Nat} {m : Mem} {Q : Unit → Mem → Prop}
    (hQ : ∀ m', m'.next = m.next → Frame m m' out → bytes m' out 0 32 = Ed.ScReduce (bytes m x 0 64) → Q () m') : Gives (ScReduce out x) m Q :=
  gives_bind (gives_run (run_limbs64 x m) (gives_wrBs fun m' n1 k1 b1 _ => hQ m' n1 (k1.frame n1) (b1 (packScalar_length _))))

theorem gives_ScMulAdd {x a b c : Nat} {m : Mem} {Q : Unit → Mem → Prop}
    (hQ : ∀ m', m'.next = m.next → Frame m m' x → bytes m' x 0 32 = Ed.ScMulAdd (bytes m a 0 32) (bytes m b 0 32) (bytes m c 0 32) → Q () m') :
    Gives (ScMulAdd x a b c) m Q :=
  gives_bind (gives_run (run_limbs32 a m) (gives_bind (gives_run (run_limbs32 b m) (gives_bind (gives_run (run_limbs32 c m)
    (gives_wrBs fun m' n1 k1 b1 _ => hQ m' n1 (k1.frame n1) (b1 (packScalar_length _))))))))

/-! ## Keys -/

theorem bytes_take {m : Mem} {o i n k : Nat} (h : k ≤ n) : (bytes m o i n).take k = bytes m o i k := by
  obtain ⟨j, rfl⟩ := Nat.exists_eq_add_of_le h
  rw [bytes_add, List.take_append_of_le_length (Nat.le_of_eq (bytes_length _ _ _ _).symm), List.take_of_length_le (Nat.le_of_eq (bytes_length _ _ _ _))]

theorem bytes_drop {m : Mem} {o i n k : Nat} (h : k ≤ n) : (bytes m o i n).drop k = bytes m o (i + k) (n - k) := by
  obtain ⟨j, rfl⟩ := Nat.exists_eq_add_of_le h
  rw [bytes_add, List.drop_left' (bytes_length _ _ _ _), Nat.add_sub_cancel_left]

theorem run_rdPieces (ps : List Piece) (m : Mem) : (rdPieces ps).run m = ((ps.map fun p => bytes m p.o p.i p.n).flatten, m) := by
  induction ps with
  | nil => rw [rdPieces, run_pure]; rfl
  | cons p ps ih => rw [rdPieces, run_bind, run_rdBs, run_bind, ih, run_pure]; rfl

theorem gives_rdPieces {ps : List Piece} {m : Mem} {Q : Bytes → Mem → Prop} (h : Q (ps.map fun p => bytes m p.o p.i p.n).flatten m) : Gives (rdPieces ps) m Q :=
  gives_run (run_rdPieces ps m) h

theorem gives_sum {n : Nat} {l : Bytes} {m : Mem} {Q : Nat → Mem → Prop} (hl : l.length = n)
    (hQ : ∀ m', m'.next = m.next + 1 → Frame m m' m.next → bytes m' m.next 0 n = l → Q m.next m') : Gives (sum n l) m Q := by
  refine gives_frame (w := m.next) (C := fun o m' => o = m.next ∧ m'.next = m.next + 1 ∧ bytes m' m.next 0 n = l) (fun P _ => (sameNew_sum _ _ _).same) ?_ ?_
  · exact gives_bind (gives_decl fun m1 n1 F1 => gives_bind (gives_wrBs fun m2 n2 k2 b2 _ => gives_pure ⟨rfl, by omega, b2 hl⟩))
  · rintro _ m' F ⟨rfl, n1, b⟩
    exact hQ m' n1 F b

/-- Copying, with what is not changed in the other places of the array. -/
theorem gives_copy {dst i src j n : Nat} {m : Mem} {Q : Unit → Mem → Prop} (hd : src ≠ dst)
    (h : ∀ m', m'.next = m.next → Frame m m' dst → bytes m' dst i n = bytes m src j n →
      (∀ a k, a + k ≤ i ∨ i + n ≤ a → bytes m' dst a k = bytes m dst a k) → Q () m') : Gives (copyB dst i src j n) m Q :=
  gives_copyB hd fun m' n1 k1 b1 o1 => h m' n1 (k1.frame n1) b1 fun a k hak => bytes_congr fun x hx => o1 _ (by omega)

theorem gives_MakePublicKey {sk : Nat} {m : Mem} {Q : Nat → Mem → Prop} (g : Globals m) (hs : sk < m.next)
    (hQ : ∀ m', m.next < m'.next → Frame m m' m.next → bytes m' m.next 0 32 = (Ed.GeScalarMultBase (bytes m sk 0 32)).ToBytes → Q m.next m') :
    Gives (MakePublicKey sk) m Q := by
  refine gives_frame (w := m.next) (C := fun o m' => o = m.next ∧ m.next < m'.next ∧ bytes m' m.next 0 32 = (Ed.GeScalarMultBase (bytes m sk 0 32)).ToBytes)
    (fun P _ => (sameNew_MakePublicKey sk).same) ?_ ?_
  · have hf := g.free
    refine gives_bind (gives_decl fun m1 n1 F1 => gives_bind (gives_decl fun m2 n2 F2 => gives_bind (gives_copy (by omega) fun m3 n3 F3 b3 _ =>
      gives_bind (gives_decl fun m4 n4 F4 => ?_))))
    have g4 : Globals m4 := (((g.only F1.only (by omega)).only F2.only (by omega)).only F3.only (by omega)).only F4.only (by omega)
    refine gives_bind (gives_GeScalarMultBase g4 (by omega) (by omega) (by omega) fun m5 F5 v5 => ?_)
    have n5 := F5.1
    refine gives_bind (gives_toBytes (by omega) (by omega) fun m6 F6 b6 => gives_pure ⟨rfl, by have := F6.1; omega, ?_⟩)
    rw [b6, v5]
    simp (disch := omega) only [F4.bytes, b3, F2.bytes, F1.bytes]
  · rintro _ m' F ⟨rfl, n1, b⟩
    exact hQ m' n1 F b

theorem gives_Sign {H : Hashes} (hH : H.Ok) {prv msg n : Nat} {m : Mem} (g : Globals m) (hp : prv < m.next) (hm : msg < m.next) {k : Nat} (hk : 64 ≤ k) :
    Gives (Sign H prv msg n) m fun o m' => m.next ≤ o ∧ o < m'.next ∧ Bip32.Sign H (bytes m prv 0 k) (bytes m msg 0 n) = .ok (bytes m' o 0 64) := by
  have hf := g.free
  refine gives_bind (gives_MakePublicKey g hp fun m1 n1 F1 b1 => gives_bind (gives_rdPieces (gives_bind (gives_sum (hH.sha512 _) fun m3 n3 F3 b3 => ?_))))
  have g3 : Globals m3 := (g.only F1.only (by omega)).only F3.only (by omega)
  simp (disch := omega) only [List.map_cons, List.map_nil, List.flatten_cons, List.flatten_nil, List.append_nil, F1.bytes] at b3
  refine gives_bind (gives_decl fun m4 n4 F4 => gives_bind (gives_decl fun m5 n5 F5 => gives_bind (gives_copy (by omega) fun m6 n6 F6 b6 _ =>
    gives_bind (gives_ScReduce fun m7 n7 F7 b7 => ?_))))
  have g7 : Globals m7 := (((g3.only F4.only (by omega)).only F5.only (by omega)).only F6.only (by omega)).only F7.only (by omega)
  simp (disch := omega) only [b6, F5.bytes, F4.bytes, b3] at b7
  refine gives_bind (gives_decl fun m8 n8 F8 => gives_bind (gives_decl fun m9 n9 F9 => gives_bind (gives_wrBs fun m10 n10 k10 _ _ =>
    gives_bind (gives_copy (by omega) fun m11 n11 F11 _ _ => gives_bind (gives_decl fun m12 n12 F12 => gives_bind (gives_decl fun m13 n13 F13 => ?_))))))
  have F10 := k10.frame n10
  have g13 : Globals m13 := (((((g7.only F8.only (by omega)).only F9.only (by omega)).only F10.only (by omega)).only F11.only (by omega)).only F12.only (by omega)).only
    F13.only (by omega)
  refine gives_bind (gives_GeScalarMultBase g13 (by omega) (by omega) (by omega) fun m14 F14 v14 => ?_)
  have n14 := F14.1
  refine gives_bind (gives_toBytes (by omega) (by omega) fun m15 F15 b15 => ?_)
  have n15 := F15.1
  rw [v14] at b15
  simp (disch := omega) only [F13.bytes, F12.bytes, F11.bytes, F10.bytes, F9.bytes, F8.bytes, b7] at b15
  refine gives_bind (gives_copy (by omega) fun m16 n16 F16 b16 _ => gives_bind (gives_copy (by omega) fun m17 n17 F17 b17 o17 => ?_))
  have r17 := o17 0 32 (.inl (Nat.le_refl _))
  rw [b16, b15] at r17
  simp (disch := omega) only [F16.bytes, F15.bytes, F14.bytes, F13.bytes, F12.bytes, F11.bytes, F10.bytes, F9.bytes, F8.bytes, F7.bytes, F6.bytes, F5.bytes, F4.bytes,
    F3.bytes, b1] at b17
  refine gives_bind (gives_rdPieces (gives_bind (gives_decl fun m19 n19 F19 => gives_bind (gives_sum (hH.sha512 _) fun m20 n20 F20 b20 => ?_))))
  simp only [List.map_cons, List.map_nil, List.flatten_cons, List.flatten_nil, List.append_nil] at b20
  rw [bytes_add m17 m7.next 0 32 32, Nat.zero_add, r17, b17] at b20
  simp (disch := omega) only [F17.bytes, F16.bytes, F15.bytes, F14.bytes, F13.bytes, F12.bytes, F11.bytes, F10.bytes, F9.bytes, F8.bytes, F7.bytes, F6.bytes, F5.bytes, F4.bytes,
    F3.bytes, F1.bytes] at b20
  refine gives_bind (gives_copy (by omega) fun m21 n21 F21 b21 _ => gives_bind (gives_decl fun m22 n22 F22 => gives_bind (gives_ScReduce fun m23 n23 F23 b23 => ?_)))
  simp (disch := omega) only [F22.bytes, b21, b20] at b23
  refine gives_bind (gives_decl fun m24 n24 F24 => gives_bind (gives_decl fun m25 n25 F25 => gives_bind (gives_copy (by omega) fun m26 n26 F26 _ _ =>
    gives_bind (gives_copy (by omega) fun m27 n27 F27 b27 _ => gives_bind (gives_ScMulAdd fun m28 n28 F28 b28 => gives_bind (gives_copy (by omega) fun m29 n29 F29 b29 o29 =>
    gives_pure ⟨by omega, by omega, ?_⟩))))))
  simp (disch := omega) only [F26.bytes, F25.bytes, F24.bytes, F23.bytes, F22.bytes, F21.bytes, F20.bytes, F19.bytes, F17.bytes, F16.bytes, F15.bytes, F14.bytes, F13.bytes,
    F12.bytes, F11.bytes, F10.bytes, F9.bytes, F8.bytes, F7.bytes, F6.bytes, F5.bytes, F4.bytes, F3.bytes, F1.bytes] at b27
  simp (disch := omega) only [b27, F27.bytes, F26.bytes, F25.bytes, F24.bytes, b23, F23.bytes, F22.bytes, F21.bytes, F20.bytes, F19.bytes, F17.bytes, F16.bytes, F15.bytes,
    F14.bytes, F13.bytes, F12.bytes, F11.bytes, F10.bytes, F9.bytes, F8.bytes, b7] at b28
  have r29 := o29 0 32 (.inl (Nat.le_refl _))
  simp (disch := omega) only [F28.bytes, F27.bytes, F26.bytes, F25.bytes, F24.bytes, F23.bytes, F22.bytes, F21.bytes, F20.bytes, F19.bytes, r17] at r29
  rw [bytes_add _ _ 0 32 32, Nat.zero_add, r29, b29, b28]
  have hl : (Ed.GeScalarMultBase (Ed.ScReduce (H.sha512 (bytes m prv 32 32 ++ bytes m msg 0 n)))).ToBytes.length = 32 := by rw [← r29, bytes_length]
  unfold Bip32.Sign makePublicKey
  rw [if_neg (by rw [bytes_length]; omega), bytes_take (by omega), bytes_drop (by omega), bytes_take (by omega), Nat.zero_add]
  dsimp only
  rw [List.take_left' hl]

/-! ## Derivation -/

theorem wr_keeps (m : Mem) (o i : Nat) (v : Int) : Keeps m (m.wr (o, 0) i v) o := fun _ _ _ ho => if_neg fun hc => ho hc.1

theorem wr_cell (m : Mem) (o i j : Nat) (v : Int) : (m.wr (o, 0) i v).cell o 0 j = if j = i then v else m.cell o 0 j := by simp [Mem.wr]

theorem gives_mul8Loop {out x xi y yi : Nat} (hx : x ≠ out) (hy : y ≠ out) (n : Nat) : ∀ (i : Nat) (c : UInt16) (m : Mem),
    Gives (mul8Loop out x xi y yi i n c) m fun c' m' => m'.next = m.next ∧ Keeps m m' out ∧
      (bytes m' out i n, c') = Bip32.mul8Loop ((bytes m x (xi + i) n).zip (bytes m y (yi + i) n)) c ∧ ∀ j, j < i ∨ i + n ≤ j → m'.cell out 0 j = m.cell out 0 j := by
  induction n with
  | zero => exact fun i c m => gives_pure ⟨rfl, fun _ _ _ _ => rfl, rfl, fun _ _ => rfl⟩
  | succ n ih =>
    intro i c m
    refine gives_bind (gives_rdB (gives_bind (gives_rdB (gives_bind (gives_wrB ((ih (i + 1) _ _).imp ?_))))))
    rintro c' m' ⟨n1, k1, b1, o1⟩
    refine ⟨n1, fun o f j ho => (k1 o f j ho).trans (wr_keeps _ _ _ _ o f j ho), ?_, fun j hj => ?_⟩
    · rw [(wr_keeps _ _ _ _).bytes hx, (wr_keeps _ _ _ _).bytes hy] at b1
      rw [bytes_succ m x, bytes_succ m y, List.zip_cons_cons, Bip32.mul8Loop]
      dsimp only
      rw [Nat.add_assoc, Nat.add_assoc, ← b1, bytes_succ, o1 i (by omega), wr_cell, if_pos rfl, byte_cell]
    · rw [o1 j (by omega), wr_cell, if_neg (by omega)]

theorem gives_carryLoop {out x xi : Nat} (hx : x ≠ out) (n : Nat) : ∀ (i : Nat) (c : UInt16) (m : Mem),
    Gives (carryLoop out x xi i n c) m fun _ m' => m'.next = m.next ∧ Keeps m m' out ∧
      bytes m' out i n = Bip32.carryLoop (bytes m x (xi + i) n) c ∧ ∀ j, j < i ∨ i + n ≤ j → m'.cell out 0 j = m.cell out 0 j := by
  induction n with
  | zero => exact fun i c m => gives_pure ⟨rfl, fun _ _ _ _ => rfl, rfl, fun _ _ => rfl⟩
  | succ n ih =>
    intro i c m
    refine gives_bind (gives_rdB (gives_bind (gives_wrB ((ih (i + 1) _ _).imp ?_))))
    rintro _ m' ⟨n1, k1, b1, o1⟩
    refine ⟨n1, fun o f j ho => (k1 o f j ho).trans (wr_keeps _ _ _ _ o f j ho), ?_, fun j hj => ?_⟩
    · rw [(wr_keeps _ _ _ _).bytes hx] at b1
      rw [bytes_succ m x, Bip32.carryLoop]
      rw [Nat.add_assoc, ← b1, bytes_succ, o1 i (by omega), wr_cell, if_pos rfl, byte_cell]
    · rw [o1 j (by omega), wr_cell, if_neg (by omega)]

theorem gives_addLoop {out x xi y yi : Nat} (hx : x ≠ out) (hy : y ≠ out) (n : Nat) : ∀ (i : Nat) (c : UInt16) (m : Mem),
    Gives (addLoop out x xi y yi i n c) m fun _ m' => m'.next = m.next ∧ Keeps m m' out ∧
      bytes m' out i n = Bip32.addLoop ((bytes m x (xi + i) n).zip (bytes m y (yi + i) n)) c ∧ ∀ j, j < i ∨ i + n ≤ j → m'.cell out 0 j = m.cell out 0 j := by
  induction n with
  | zero => exact fun i c m => gives_pure ⟨rfl, fun _ _ _ _ => rfl, rfl, fun _ _ => rfl⟩
  | succ n ih =>
    intro i c m
    refine gives_bind (gives_rdB (gives_bind (gives_rdB (gives_bind (gives_wrB ((ih (i + 1) _ _).imp ?_))))))
    rintro _ m' ⟨n1, k1, b1, o1⟩
    refine ⟨n1, fun o f j ho => (k1 o f j ho).trans (wr_keeps _ _ _ _ o f j ho), ?_, fun j hj => ?_⟩
    · rw [(wr_keeps _ _ _ _).bytes hx, (wr_keeps _ _ _ _).bytes hy] at b1
      rw [bytes_succ m x, bytes_succ m y, List.zip_cons_cons, Bip32.addLoop]
      rw [Nat.add_assoc, Nat.add_assoc, ← b1, bytes_succ, o1 i (by omega), wr_cell, if_pos rfl, byte_cell]
    · rw [o1 j (by omega), wr_cell, if_neg (by omega)]

theorem gives_add28mul8 {x xi y yi : Nat} {m : Mem} {Q : Nat → Mem → Prop} (hx : x < m.next) (hy : y < m.next)
    (hQ : ∀ m', m'.next = m.next + 1 → Frame m m' m.next → bytes m' m.next 0 32 = Bip32.add28mul8 (bytes m x xi 32) (bytes m y yi 32) → Q m.next m') :
    Gives (add28mul8 x xi y yi) m Q := by
  refine gives_frame (w := m.next) (C := fun o m' => o = m.next ∧ m'.next = m.next + 1 ∧ bytes m' m.next 0 32 = Bip32.add28mul8 (bytes m x xi 32) (bytes m y yi 32))
    (fun P _ => (sameNew_add28mul8 _ _ _ _).same) ?_ ?_
  · refine gives_bind (gives_decl fun m1 n1 F1 => gives_bind ((gives_mul8Loop (by omega) (by omega) 28 0 0 m1).imp ?_))
    rintro c m2 ⟨n2, k2, b2, o2⟩
    refine gives_bind ((gives_carryLoop (by omega) 4 28 c m2).imp ?_)
    rintro _ m3 ⟨n3, k3, b3, o3⟩
    refine gives_pure ⟨rfl, by omega, ?_⟩
    rw [k2.bytes (by omega), F1.bytes hx (by omega)] at b3
    rw [F1.bytes hx (by omega), F1.bytes hy (by omega)] at b2
    have h3 : bytes m3 m.next 0 28 = bytes m2 m.next 0 28 := bytes_congr fun j hj => o3 _ (by omega)
    rw [bytes_add _ _ 0 28 4, Nat.zero_add, h3, b3]
    unfold Bip32.add28mul8
    rw [bytes_take (by omega), bytes_take (by omega), bytes_drop (by omega), bytes_take (by omega)]
    simp only [Nat.add_zero] at b2
    rw [← b2]
  · rintro _ m' F ⟨rfl, n1, b⟩
    exact hQ m' n1 F b

theorem gives_add256bits {x xi y yi : Nat} {m : Mem} {Q : Nat → Mem → Prop} (hx : x < m.next) (hy : y < m.next)
    (hQ : ∀ m', m'.next = m.next + 1 → Frame m m' m.next → bytes m' m.next 0 32 = Bip32.add256bits (bytes m x xi 32) (bytes m y yi 32) → Q m.next m') :
    Gives (add256bits x xi y yi) m Q := by
  refine gives_frame (w := m.next) (C := fun o m' => o = m.next ∧ m'.next = m.next + 1 ∧ bytes m' m.next 0 32 = Bip32.add256bits (bytes m x xi 32) (bytes m y yi 32))
    (fun P _ => (sameNew_add256bits _ _ _ _).same) ?_ ?_
  · refine gives_bind (gives_decl fun m1 n1 F1 => gives_bind ((gives_addLoop (by omega) (by omega) 32 0 0 m1).imp ?_))
    rintro _ m2 ⟨n2, k2, b2, o2⟩
    refine gives_pure ⟨rfl, by omega, ?_⟩
    rw [F1.bytes hx (by omega), F1.bytes hy (by omega)] at b2
    rw [b2, Bip32.add256bits, bytes_take (by omega), bytes_take (by omega), Nat.add_zero, Nat.add_zero]
  · rintro _ m' F ⟨rfl, n1, b⟩
    exact hQ m' n1 F b

theorem gives_byteArray {v : UInt8} {m : Mem} {Q : Nat → Mem → Prop}
    (hQ : ∀ m', m'.next = m.next + 1 → Frame m m' m.next → bytes m' m.next 0 1 = [v] → Q m.next m') : Gives (byteArray v) m Q := by
  refine gives_frame (w := m.next) (C := fun o m' => o = m.next ∧ m'.next = m.next + 1 ∧ bytes m' m.next 0 1 = [v]) (fun P _ => (sameNew_byteArray v v).same) ?_ ?_
  · refine gives_bind (gives_decl fun m1 n1 F1 => gives_bind (gives_wrB (gives_pure ⟨rfl, n1, ?_⟩)))
    rw [bytes_succ, wr_cell, if_pos rfl, byte_cell]
    rfl
  · rintro _ m' F ⟨rfl, n1, b⟩
    exact hQ m' n1 F b

theorem gives_deriveInput {t : UInt8} {p : Piece} {s : Nat} {m : Mem} {Q : Bytes → Mem → Prop} (hp : p.o < m.next) (hs : s < m.next)
    (hQ : ∀ m', m'.next = m.next + 1 → Frame m m' m.next → Q (t :: (bytes m p.o p.i p.n ++ bytes m s 0 4)) m') : Gives (deriveInput t p s) m Q := by
  refine gives_bind (gives_byteArray fun m1 n1 F1 b1 => gives_rdPieces ?_)
  simp only [List.map_cons, List.map_nil, List.flatten_cons, List.flatten_nil, List.append_nil, b1]
  rw [F1.bytes hp (by omega), F1.bytes hs (by omega)]
  exact hQ m1 n1 F1

/-- What is written to the hash functions by `Derive`. -/
def input (t t' : UInt8) (ext : Bytes) (index : UInt32) : Bytes :=
  if isHardened index then t :: (ext ++ le32 index) else t' :: (makePublicKey ext ++ le32 index)

theorem gives_deriveInputs {key s : Nat} {index : UInt32} {m : Mem} {Q : Bytes × Bytes → Mem → Prop} (g : Globals m) (hk : key < m.next) (hs : s < m.next)
    (hi : bytes m s 0 4 = le32 index)
    (hQ : ∀ m', Frame m m' m.next → Q (input 0x00 0x02 (bytes m key 0 64) index, input 0x01 0x03 (bytes m key 0 64) index) m') : Gives (deriveInputs key index s) m Q := by
  refine gives_frame (w := m.next) (C := fun a _ => a = (input 0x00 0x02 (bytes m key 0 64) index, input 0x01 0x03 (bytes m key 0 64) index))
    (fun P _ => same_deriveInputs key rfl s) ?_ ?_
  · unfold deriveInputs input
    by_cases hh : isHardened index = true
    · simp only [if_pos hh]
      refine gives_bind (gives_deriveInput hk hs fun m1 n1 F1 => gives_bind (gives_deriveInput (by show key < _; omega) (by omega) fun m2 n2 F2 => gives_pure ?_))
      simp (disch := omega) only [F1.bytes, hi]
    · simp only [if_neg hh]
      refine gives_bind (gives_MakePublicKey g hk fun m1 n1 F1 b1 => gives_bind (gives_deriveInput (by exact n1) (by omega) fun m2 n2 F2 =>
        gives_bind (gives_deriveInput (by show m.next < _; omega) (by omega) fun m3 n3 F3 => gives_pure ?_)))
      simp (disch := omega) only [F2.bytes, F1.bytes, b1, hi, makePublicKey, bytes_take]
  · rintro _ m' F rfl
    exact hQ m' F

theorem gives_deriveOutput {key zout iout : Nat} {m : Mem} (hk : key < m.next) (hz : zout < m.next) (hi : iout < m.next) :
    Gives (deriveOutput key zout iout) m fun o m' => m.next ≤ o ∧ o < m'.next ∧
      bytes m' o 0 96 = Bip32.add28mul8 (bytes m key 0 32) (bytes m zout 0 32) ++ Bip32.add256bits (bytes m key 32 32) (bytes m zout 32 32) ++ bytes m iout 32 32 := by
  refine gives_bind (gives_add28mul8 hk hz fun m1 n1 F1 b1 => gives_bind (gives_add256bits (by omega) (by omega) fun m2 n2 F2 b2 => gives_bind (gives_decl fun m3 n3 F3 =>
    gives_bind (gives_copy (by omega) fun m4 n4 F4 b4 _ => gives_bind (gives_copy (by omega) fun m5 n5 F5 b5 o5 => gives_bind (gives_decl fun m6 n6 F6 =>
    gives_bind (gives_copy (by omega) fun m7 n7 F7 b7 _ => gives_bind (gives_copy (by omega) fun m8 n8 F8 b8 o8 => gives_pure ⟨by omega, by omega, ?_⟩))))))))
  have r5 := o5 0 32 (.inl (Nat.le_refl _))
  have r8 := o8 0 64 (.inl (Nat.le_refl _))
  simp (disch := omega) only [F3.bytes, F2.bytes, b1] at b4
  simp (disch := omega) only [F4.bytes, F3.bytes, b2, F1.bytes] at b5
  rw [b7, F6.bytes (by omega) (by omega), bytes_add m5 m2.next 0 32 32, Nat.zero_add, r5, b4, b5] at r8
  simp (disch := omega) only [F7.bytes, F6.bytes, F5.bytes, F4.bytes, F3.bytes, F2.bytes, F1.bytes] at b8
  rw [bytes_add _ _ 0 64 32, Nat.zero_add, r8, b8]

theorem gives_Derive {H : Hashes} (hH : H.Ok) {key n : Nat} {index : UInt32} {m : Mem} (g : Globals m) (hk : key < m.next) (hn : 64 ≤ n) :
    Gives (Derive H key n index) m fun o m' => m.next ≤ o ∧ o < m'.next ∧ Bip32.Derive H makePublicKey (bytes m key 0 n) index = .ok (bytes m' o 0 96) := by
  have hf := g.free
  refine gives_bind (gives_rdBs (gives_bind (gives_rdBs (gives_bind (gives_decl fun m1 n1 F1 => gives_bind (gives_wrBs fun m2 n2 k2 b2 _ => ?_))))))
  have F2 := k2.frame n2
  have g2 : Globals m2 := (g.only F1.only (by omega)).only F2.only (by omega)
  refine gives_bind (gives_deriveInputs g2 (by omega) (by omega) (b2 rfl) fun m3 F3 => ?_)
  have n3 := F3.1
  refine gives_bind (gives_sum (hH.hmac512 _ _) fun m4 n4 F4 b4 => gives_bind (gives_sum (hH.hmac512 _ _) fun m5 n5 F5 b5 =>
    (gives_deriveOutput (by omega) (by omega) (by omega)).imp ?_))
  rintro o m' ⟨h1, h2, b⟩
  refine ⟨by omega, h2, ?_⟩
  have hz : ∀ i k, bytes m5 m3.next i k = bytes m4 m3.next i k := fun i k => F5.bytes (by omega) (by omega)
  have z1 : bytes m4 m3.next 0 32 = (bytes m4 m3.next 0 64).take 32 := (bytes_take (by omega)).symm
  have z2 : bytes m4 m3.next 32 32 = ((bytes m4 m3.next 0 64).drop 32).take 32 := by rw [bytes_drop (by omega), bytes_take (by omega), Nat.zero_add]
  have i2 : bytes m5 m4.next 32 32 = (bytes m5 m4.next 0 64).drop 32 := by rw [bytes_drop (by omega), Nat.zero_add]
  rw [hz, hz, z1, z2, i2, b4, b5] at b
  simp (disch := omega) only [F5.bytes, F4.bytes, F3.bytes, F2.bytes, F1.bytes] at b
  rw [b]
  unfold Bip32.Derive input
  rw [if_neg (by rw [bytes_length]; omega)]
  simp (disch := omega) only [bytes_take, bytes_drop, Nat.zero_add]

/-! ## Root keys -/

theorem modify_eq {m m' : Mem} {o i n : Nat} {f : UInt8 → UInt8} (h : m' = m.wr (o, 0) i (f (UInt8.ofNat (m.cell o 0 i).toNat)).toNat) :
    bytes m' o 0 n = modifyAt (bytes m o 0 n) i f := by
  unfold modifyAt
  refine bytes_ext (by rw [List.length_modify, bytes_length]) fun j hj => ?_
  rw [Nat.zero_add, h, wr_cell, List.getD_eq_getElem?_getD, List.getElem?_modify]
  have hg : (bytes m o 0 n)[j]? = some (UInt8.ofNat (m.cell o 0 j).toNat) := by simp [bytes, hj]
  rw [hg]
  by_cases hc : j = i
  · rw [if_pos hc, byte_cell, hc]; simp
  · rw [if_neg hc]; simp [Ne.symm hc]

/-- Three bytes changed in place. -/
theorem gives_clamp {o n : Nat} {m : Mem} {f g h : UInt8 → UInt8} {β : Type} {k : Prog β} {Q : β → Mem → Prop}
    (hQ : ∀ m', m'.next = m.next → Frame m m' o → bytes m' o 0 n = modifyAt (modifyAt (modifyAt (bytes m o 0 n) 0 f) 31 g) 31 h → Gives k m' Q) :
    Gives (rdB o 0 >>= fun v => wrB o 0 (f v) >>= fun _ => rdB o 31 >>= fun v => wrB o 31 (g v) >>= fun _ => rdB o 31 >>= fun v => wrB o 31 (h v) >>= fun _ => k) m Q := by
  refine gives_bind (gives_rdB (gives_bind (gives_wrB (gives_bind (gives_rdB (gives_bind (gives_wrB (gives_bind (gives_rdB (gives_bind (gives_wrB (hQ _ rfl ?_ ?_))))))))))))
  · exact ⟨Nat.le_refl _, fun o' f' i' _ ho => (wr_keeps _ _ _ _ o' f' i' ho).trans ((wr_keeps _ _ _ _ o' f' i' ho).trans (wr_keeps _ _ _ _ o' f' i' ho))⟩
  · rw [modify_eq rfl, modify_eq rfl, modify_eq rfl]

theorem gives_FromBip39Entropy {H : Hashes} (hH : H.Ok) {entropy n password k : Nat} {m : Mem} :
    Gives (FromBip39Entropy H entropy n password k) m fun o m' => m.next ≤ o ∧ o < m'.next ∧
      Bip32.FromBip39Entropy H (bytes m entropy 0 n) (bytes m password 0 k) = .ok (bytes m' o 0 96) := by
  refine gives_bind (gives_rdBs (gives_bind (gives_rdBs (gives_bind (gives_decl fun m1 n1 F1 => gives_bind (gives_wrBs fun m2 n2 k2 b2 _ => ?_))))))
  unfold NormalizeBytesForce3rd
  simp only [bind_assoc]
  refine gives_clamp (n := 96) fun m3 n3 F3 b3 => gives_pure ⟨Nat.le_refl _, by omega, ?_⟩
  rw [b3, b2 (hH.pbkdf2 _ _), Bip32.FromBip39Entropy, Bip32.NormalizeBytesForce3rd, if_neg (by rw [hH.pbkdf2]; omega)]

theorem gives_NewXPrv {H : Hashes} (hH : H.Ok) {seed : Nat} {m : Mem} (hs : seed < m.next) :
    Gives (NewXPrv H seed) m fun o m' => m.next ≤ o ∧ o < m'.next ∧ Bip32.NewXPrv H (bytes m seed 0 32) = .ok (bytes m' o 0 96) := by
  refine gives_bind (gives_rdBs (gives_bind (gives_sum (hH.sha512 _) fun m1 n1 F1 b1 => ?_)))
  refine gives_clamp (n := 64) fun m2 n2 F2 b2 => ?_
  refine gives_bind (gives_byteArray fun m3 n3 F3 b3 => gives_bind (gives_decl fun m4 n4 F4 => gives_bind (gives_copy (by omega) fun m5 n5 F5 b5 _ =>
    gives_bind (gives_copy (by omega) fun m6 n6 F6 b6 o6 => gives_bind (gives_rdBs (gives_bind (gives_sum (hH.sha256 _) fun m7 n7 F7 b7 => gives_bind (gives_decl fun m8 n8 F8 =>
    gives_bind (gives_copy (by omega) fun m9 n9 F9 b9 _ => gives_bind (gives_copy (by omega) fun m10 n10 F10 b10 o10 => gives_pure ⟨by omega, by omega, ?_⟩))))))))))
  have r6 := o6 0 1 (.inl (Nat.le_refl _))
  have r10 := o10 0 64 (.inl (Nat.le_refl _))
  simp (disch := omega) only [F4.bytes, b3] at b5
  simp (disch := omega) only [F5.bytes, F4.bytes, F3.bytes, F2.bytes, F1.bytes] at b6
  rw [bytes_add m6 m3.next 0 1 32, r6, b5, Nat.zero_add, b6] at b7
  simp (disch := omega) only [F8.bytes, F7.bytes, F6.bytes, F5.bytes, F4.bytes, F3.bytes, b2, b1] at b9
  simp (disch := omega) only [F9.bytes, F8.bytes, b7] at b10
  rw [bytes_add _ _ 0 64 32, Nat.zero_add, r10, b9, b10, Bip32.NewXPrv, if_neg (by rw [bytes_length]; simp)]
  rfl

end Cardano.Bip32.Acc
