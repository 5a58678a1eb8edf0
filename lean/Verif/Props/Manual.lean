import Verif.Tx.Manual
import Verif.Props.Ledger
/-!
# Properties C98 to C100: transactions made by hand, without the builder
-/
set_option autoImplicit false

namespace Cardano.Props
open Cbor TxSpec Transaction TxBuilder Addr Bip32
open ByHand (feePass feeLoop signWith bodyBytes bodyHex Payment pay)
open Ledger (read seen refOf outOf witOf Env UTxO OutputAddress readAux)

/-! ### C98: the fee -/

/-- The metadata, if any, is always encoded to `n` bytes. -/
def Steady (md : Option Metadata) (n : Nat) : Prop := ∀ k, ∃ m, marshalMetadata md k = .ok m ∧ m.length = n

/-- The size of a transaction without its fee. -/
def restSize (t : Tx) (n : Nat) (outs : List Bytes) : Nat :=
  6 + (encArray (t.body.inputs.map marshalInput)).length + (encArray outs).length + (if t.body.ttl = 0 then 0 else 1 + uintSize t.body.ttl.toNat) +
    (if t.metadata.isNone ∧ t.body.auxHash = [] then 0 else 35) + (marshalWitness t.witness).length + n

theorem auxOf_size (C : Crypto) (hH : ∀ m, (C.blake256 m).length = 32) (md : Option Metadata) (old m : Bytes) (ho : old = [] ∨ old.length = 32) :
    (auxOf C md old m = [] ∨ (auxOf C md old m).length = 32) ∧
      (if auxOf C md old m = [] then 0 else 35) = (if md.isNone ∧ old = [] then 0 else 35) ∧ (md.isNone ∧ auxOf C md old m = [] ↔ md.isNone ∧ old = []) := by
  cases md with
  | none => exact ⟨ho, by by_cases h : old = [] <;> simp [auxOf, h], by simp [auxOf]⟩
  | some d =>
    refine ⟨.inr (hH m), ?_, by simp⟩
    have : auxOf C (some d) old m ≠ [] := fun h => by
      have := congrArg List.length h
      rw [show (auxOf C (some d) old m).length = 32 from hH m] at this
      cases this
    rw [if_neg this]; simp

theorem bytes_size (C : Crypto) (hH : ∀ m, (C.blake256 m).length = 32) (t : Tx) (k n : Nat) (outs : List Bytes) (hs : Steady t.metadata n)
    (ho : collect (t.body.outputs.map marshalOutput) = .ok outs) (ha : t.body.auxHash = [] ∨ t.body.auxHash.length = 32) :
    ∃ bs, Transaction.bytes C t k = .ok bs ∧ bs.length = restSize t n outs + uintSize t.body.fee.toNat := by
  obtain ⟨m, h1, -⟩ := hs k
  obtain ⟨m', h2, h3⟩ := hs (k + 1)
  obtain ⟨a1, a2, -⟩ := auxOf_size C hH t.metadata t.body.auxHash m ha
  obtain ⟨bs, e1, e2⟩ := tx_size { t with body := { t.body with auxHash := auxOf C t.metadata t.body.auxHash m } } (k + 1) outs m' ho h2 a1
  refine ⟨bs, ?_, ?_⟩
  · unfold Transaction.bytes
    rw [calcAux_of C t m k h1]
    exact e1
  · rw [e2, h3]
    simp only [a2]
    unfold restSize
    omega

theorem bytes_outs (C : Crypto) (t : Tx) (k : Nat) (bs : Bytes) (h : Transaction.bytes C t k = .ok bs) :
    ∃ outs, collect (t.body.outputs.map marshalOutput) = .ok outs := by
  obtain ⟨b, hc, h⟩ := bind_ok h
  obtain ⟨body, m, h1, -⟩ := marshalTx_parts _ _ _ h
  obtain ⟨outs, ho, -⟩ := bind_ok h1
  refine ⟨outs, ?_⟩
  have : b.outputs = t.body.outputs := by
    unfold calcAux at hc
    split at hc
    · injection hc with hc; rw [← hc]
    · split at hc
      · injection hc with hc; rw [← hc]
      · cases hc
      · cases hc
  rw [← this]; exact ho

/-- One pass: what becomes of the transaction. -/
theorem feePass_ok (C : Crypto) (hH : ∀ m, (C.blake256 m).length = 32) (l : LinearFee) (t : Tx) (k n : Nat) (outs : List Bytes) (hs : Steady t.metadata n)
    (ho : collect (t.body.outputs.map marshalOutput) = .ok outs) (ha : t.body.auxHash = [] ∨ t.body.auxHash.length = 32)
    (hov : l.txFeeFixed.toNat + l.txFeePerByte.toNat * (restSize t n outs + uintSize t.body.fee.toNat) < 2 ^ 64)
    (hlen : restSize t n outs < 2 ^ 62) :
    ∃ f aux, feePass C l t k = .ok ({ t with body := { t.body with fee := f, auxHash := aux } }, k + 2) ∧
      f.toNat = l.txFeeFixed.toNat + l.txFeePerByte.toNat * (restSize t n outs + uintSize t.body.fee.toNat) ∧ (aux = [] ∨ aux.length = 32) ∧
      restSize { t with body := { t.body with fee := f, auxHash := aux } } n outs = restSize t n outs ∧ (t.metadata = none → aux = t.body.auxHash) := by
  obtain ⟨bs, h1, h2⟩ := bytes_size C hH t k n outs hs ho ha
  have hu := uintSize_le t.body.fee.toNat
  obtain ⟨f, f1, f2⟩ := C19_fee_exact C l t k bs h1 (by rw [h2]; exact hov) (by rw [h2]; omega)
  obtain ⟨m, m1, -⟩ := hs k
  obtain ⟨a1, a2, a3⟩ := auxOf_size C hH t.metadata t.body.auxHash m ha
  refine ⟨f, auxOf C t.metadata t.body.auxHash m, ?_, by rw [f2, h2], a1, ?_, ?_⟩
  · unfold feePass
    rw [f1, afterAux_of C t m k m1]; rfl
  · unfold restSize
    simp only [a3]
  · intro hn; rw [hn]; rfl

/-- Where the number of bytes of a number stands among 1, 2, 3, 5, 9. -/
def rank (n : Nat) : Nat := if n < 24 then 0 else if n < 2 ^ 8 then 1 else if n < 2 ^ 16 then 2 else if n < 2 ^ 32 then 3 else 4

theorem rank_le (n : Nat) : rank n ≤ 4 := by unfold rank; repeat' split
                                             all_goals omega

theorem rank_iff (a b : Nat) : rank a ≤ rank b ↔ uintSize a ≤ uintSize b := by
  unfold rank uintSize; repeat' split
  all_goals omega

theorem rank_eq (a b : Nat) (h : rank a = rank b) : uintSize a = uintSize b := by
  have h1 := (rank_iff a b).1 (by omega)
  have h2 := (rank_iff b a).1 (by omega)
  omega

/-- Five steps lead to a fixed point, from anywhere. -/
theorem five_steps (fixed per R x : Nat) (g : Nat → Nat) (hg : ∀ x, g x = fixed + per * (R + uintSize x)) : g (g (g (g (g (g x))))) = g (g (g (g (g x)))) := by
  have mono : ∀ a b, rank a ≤ rank b → rank (g a) ≤ rank (g b) := by
    intro a b h
    rw [rank_iff]
    apply uintSize_mono
    rw [hg, hg]
    have := (rank_iff a b).1 h
    have := Nat.mul_le_mul_left per (Nat.add_le_add_left this R)
    omega
  have eq : ∀ a b, rank a = rank b → g a = g b := fun a b h => by rw [hg, hg, rank_eq a b h]
  have key : ∀ x0 x1 x2 x3 x4 x5, x1 = g x0 → x2 = g x1 → x3 = g x2 → x4 = g x3 → x5 = g x4 → g x5 = x5 := by
    intro x0 x1 x2 x3 x4 x5 e1 e2 e3 e4 e5
    have l0 := rank_le x0
    have l5 := rank_le x5
    have : rank x0 = rank x1 ∨ rank x1 = rank x2 ∨ rank x2 = rank x3 ∨ rank x3 = rank x4 ∨ rank x4 = rank x5 := by
      rcases Nat.le_total (rank x0) (rank x1) with h | h
      · have h1 : rank x1 ≤ rank x2 := by have := mono _ _ h; rw [← e1, ← e2] at this; exact this
        have h2 : rank x2 ≤ rank x3 := by have := mono _ _ h1; rw [← e2, ← e3] at this; exact this
        have h3 : rank x3 ≤ rank x4 := by have := mono _ _ h2; rw [← e3, ← e4] at this; exact this
        have h4 : rank x4 ≤ rank x5 := by have := mono _ _ h3; rw [← e4, ← e5] at this; exact this
        omega
      · have h1 : rank x2 ≤ rank x1 := by have := mono _ _ h; rw [← e1, ← e2] at this; exact this
        have h2 : rank x3 ≤ rank x2 := by have := mono _ _ h1; rw [← e2, ← e3] at this; exact this
        have h3 : rank x4 ≤ rank x3 := by have := mono _ _ h2; rw [← e3, ← e4] at this; exact this
        have h4 : rank x5 ≤ rank x4 := by have := mono _ _ h3; rw [← e4, ← e5] at this; exact this
        omega
    have step : ∀ a b c, b = g a → c = g b → (rank a = rank b → b = c) := fun a b c h1 h2 h => by rw [h1, h2]; exact eq _ _ h
    have k01 := step _ _ _ e1 e2
    have k12 := step _ _ _ e2 e3
    have k23 := step _ _ _ e3 e4
    have k34 := step _ _ _ e4 e5
    have k45 := step x4 x5 (g x5) e5 rfl
    have fin : ∀ y, y = x5 → (rank x4 = rank x5 → g x5 = x5) := fun _ _ h => (k45 h).symm
    rcases this with h | h | h | h | h
    · have a := k01 h; have b := k12 (by rw [a]); have c := k23 (by rw [b]); have d := k34 (by rw [c]); exact fin _ rfl (by rw [d])
    · have b := k12 h; have c := k23 (by rw [b]); have d := k34 (by rw [c]); exact fin _ rfl (by rw [d])
    · have c := k23 h; have d := k34 (by rw [c]); exact fin _ rfl (by rw [d])
    · have d := k34 h; exact fin _ rfl (by rw [d])
    · exact fin _ rfl h
  exact key x _ _ _ _ _ rfl rfl rfl rfl rfl

/-- Several passes: the fee is iterated, nothing else but the auxiliary data hash changes. -/
theorem feeLoop_ok (C : Crypto) (hH : ∀ m, (C.blake256 m).length = 32) (l : LinearFee) (n : Nat) (outs : List Bytes) (g : Nat → Nat) (R : Nat)
    (hg : ∀ x, g x = l.txFeeFixed.toNat + l.txFeePerByte.toNat * (R + uintSize x))
    (hov : l.txFeeFixed.toNat + l.txFeePerByte.toNat * (R + 9) < 2 ^ 64) (hlen : R < 2 ^ 62) (j : Nat) :
    ∀ (t : Tx) (k : Nat), Steady t.metadata n → collect (t.body.outputs.map marshalOutput) = .ok outs → (t.body.auxHash = [] ∨ t.body.auxHash.length = 32) →
    restSize t n outs = R →
    ∃ f aux, feeLoop C l j t k = .ok ({ t with body := { t.body with fee := f, auxHash := aux } }, k + 2 * j) ∧ f.toNat = g^[j] t.body.fee.toNat ∧
      (aux = [] ∨ aux.length = 32) ∧ restSize { t with body := { t.body with fee := f, auxHash := aux } } n outs = R ∧ (t.metadata = none → aux = t.body.auxHash) := by
  induction j with
  | zero => intro t k hs ho ha hR; exact ⟨t.body.fee, t.body.auxHash, rfl, rfl, ha, hR, fun _ => rfl⟩
  | succ j ih =>
    intro t k hs ho ha hR
    obtain ⟨f, aux, e1, e2, e3, e4, e5⟩ := feePass_ok C hH l t k n outs hs ho ha (by
      rw [hR]
      have := Nat.mul_le_mul_left l.txFeePerByte.toNat (Nat.add_le_add_left (uintSize_le t.body.fee.toNat).2 R)
      omega) (by rw [hR]; exact hlen)
    obtain ⟨f', aux', i1, i2, i3, i4, i5⟩ := ih { t with body := { t.body with fee := f, auxHash := aux } } (k + 2) hs ho e3 (by rw [e4, hR])
    refine ⟨f', aux', ?_, ?_, i3, i4, fun hn => by rw [i5 hn]; exact e5 hn⟩
    · show (feePass C l t k >>= fun r => feeLoop C l j r.1 r.2) = _
      rw [e1]
      simp only [Res.ok_bind]
      rw [i1, show k + 2 + 2 * j = k + 2 * (j + 1) by omega]
    · rw [i2, Function.iterate_succ_apply, hg, ← hR, ← e2]

/-- **C98, one pass.** After `Fee` and `SetFee` the fee is off by exactly the price of the bytes by which the fee field has grown (or shrunk). -/
theorem C98_one_pass (C : Crypto) (hH : ∀ m, (C.blake256 m).length = 32) (l : LinearFee) (t t' : Tx) (k k' k'' n : Nat) (bs bs' : Bytes)
    (hs : Steady t.metadata n) (ha : t.body.auxHash = [] ∨ t.body.auxHash.length = 32)
    (hb : Transaction.bytes C t k = .ok bs) (hlen : bs.length < 2 ^ 61) (hov : l.txFeeFixed.toNat + l.txFeePerByte.toNat * bs.length < 2 ^ 64)
    (hp : feePass C l t k = .ok (t', k')) (hb' : Transaction.bytes C t' k'' = .ok bs') :
    l.txFeeFixed.toNat + l.txFeePerByte.toNat * bs'.length + l.txFeePerByte.toNat * uintSize t.body.fee.toNat =
      t'.body.fee.toNat + l.txFeePerByte.toNat * uintSize t'.body.fee.toNat := by
  obtain ⟨outs, ho⟩ := bytes_outs C t k bs hb
  obtain ⟨bs0, q1, q2⟩ := bytes_size C hH t k n outs hs ho ha
  rw [hb] at q1; injection q1 with q1; subst q1
  obtain ⟨f, aux, e1, e2, e3, e4, e5⟩ := feePass_ok C hH l t k n outs hs ho ha (by rw [← q2]; exact hov) (by omega)
  rw [hp] at e1
  injection e1 with e1
  injection e1 with e1 e1'
  obtain ⟨bs1, r1, r2⟩ := bytes_size C hH t' k'' n outs (by rw [e1]; exact hs) (by rw [e1]; exact ho) (by rw [e1]; exact e3)
  rw [hb'] at r1; injection r1 with r1; subst r1
  rw [r2]
  have : restSize t' n outs = restSize t n outs := by rw [e1]; exact e4
  rw [this]
  have : t'.body.fee = f := by rw [e1]
  rw [this, e2]
  simp only [Nat.mul_add]
  omega

/-- **C98, one pass is not enough.** If the fee was not set before (it takes one byte) and the fixed part is at least 24, the fee is too small: the ledger with these fee
parameters rejects the transaction, whatever is done about its witnesses - here with the witnesses in place when the fee was computed. -/
theorem C98_one_pass_rejected (C : Crypto) (hH : ∀ m, (C.blake256 m).length = 32) (LC : Ledger.Crypto) (l : LinearFee) (e : Env) (u : UTxO) (t t' : Tx) (k k' k'' n : Nat)
    (bs bs' : Bytes) (hs : Steady t.metadata n) (ha : t.body.auxHash = [] ∨ t.body.auxHash.length = 32) (hf : BodyFits t.body) (hw : WitnessFits t.witness)
    (hmd : ∀ md k b, t.metadata = some md → md.enc k = .ok b → ∃ x, parse b = some x)
    (hb : Transaction.bytes C t k = .ok bs) (hlen : bs.length < 2 ^ 61) (hov : l.txFeeFixed.toNat + l.txFeePerByte.toNat * bs.length < 2 ^ 64)
    (h0 : t.body.fee.toNat < 24) (hfix : 24 ≤ l.txFeeFixed.toNat) (hper : 0 < l.txFeePerByte.toNat)
    (he : e.minFeeA = l.txFeePerByte.toNat ∧ e.minFeeB = l.txFeeFixed.toNat)
    (hp : feePass C l t k = .ok (t', k')) (hb' : Transaction.bytes C t' k'' = .ok bs') : ¬ Ledger.Valid LC e u bs' := by
  have h1 := C98_one_pass C hH l t t' k k' k'' n bs bs' hs ha hb hlen hov hp hb'
  obtain ⟨outs, ho⟩ := bytes_outs C t k bs hb
  obtain ⟨bs0, q1, q2⟩ := bytes_size C hH t k n outs hs ho ha
  rw [hb] at q1; injection q1 with q1; subst q1
  obtain ⟨f, aux, e1, e2, e3, e4, e5⟩ := feePass_ok C hH l t k n outs hs ho ha (by rw [← q2]; exact hov) (by omega)
  rw [hp] at e1
  injection e1 with e1
  injection e1 with e1 e1'
  have ef : t'.body.fee = f := by rw [e1]
  have u0 : uintSize t.body.fee.toNat = 1 := by unfold uintSize; rw [if_pos h0]
  have u1 : 2 ≤ uintSize t'.body.fee.toNat := by
    have : 24 ≤ t'.body.fee.toNat := by rw [ef, e2]; omega
    have := uintSize_mono this
    have : uintSize 24 = 2 := by decide
    omega
  rintro ⟨v, hv, hacc⟩
  have hfee := hacc.fee
  -- the ledger sees this fee and this size
  obtain ⟨m, m1, -⟩ := hs k''
  obtain ⟨m', m2, -⟩ := hs (k'' + 1)
  have em : t'.metadata = t.metadata := by rw [e1]
  rw [← em] at m1 m2
  have hb'' := hb'
  unfold Transaction.bytes at hb''
  rw [calcAux_of C t' m k'' m1] at hb''
  simp only [Res.ok_bind] at hb''
  obtain ⟨body, m'', g1, g2, g3⟩ := marshalTx_parts _ _ _ hb''
  have g2 : marshalMetadata t'.metadata (k'' + 1) = .ok m'' := g2
  rw [m2] at g2
  injection g2 with g2
  subst g2
  obtain ⟨x, hx⟩ : ∃ x, parse m' = some x := by
    cases hmm : t.metadata with
    | none =>
      rw [em, hmm] at m2
      injection m2 with m2
      subst m2
      exact ⟨.simple 22, rfl⟩
    | some md => exact hmd md (k'' + 1) m' hmm (by rw [em, hmm] at m2; exact m2)
  have hr := Ledger.read_bytes { t'.body with auxHash := auxOf C t'.metadata t'.body.auxHash m } t'.witness t'.valid body m' x
    ⟨by rw [e1]; exact hf.inputs, by rw [e1]; exact hf.outputs, by rw [e1]; exact hf.hashes, by rw [e1]; exact hf.addrs, by
      have := (auxOf_size C hH t'.metadata t'.body.auxHash m (by rw [e1]; exact e3)).1
      rcases this with h | h
      · simp only [h]; decide
      · simp only [h]; decide⟩
    (by rw [e1]; exact hw) g1 hx
  rw [← show bs' = _ from g3] at hr
  dsimp only at hr
  rw [hv] at hr
  obtain ⟨aux', -, a2, -⟩ := Ledger.assemble_of _ _ _ _ _ _ _ _ hr.symm
  have s1 : v.size = bs'.length := by rw [a2]; rfl
  have s2 : v.fee = t'.body.fee.toNat := by rw [a2]; rfl
  rw [he.1, he.2, s1, s2] at hfee
  have := Nat.mul_le_mul_left l.txFeePerByte.toNat u1
  rw [u0] at h1
  omega

/-- **C98, five passes.** Whatever the fee was before, after five times `Fee` and `SetFee` the fee is exactly the linear fee of the transaction; nothing else has changed except
the auxiliary data hash. -/
theorem C98_five_passes (C : Crypto) (hH : ∀ m, (C.blake256 m).length = 32) (l : LinearFee) (t : Tx) (k n : Nat) (bs : Bytes)
    (hs : Steady t.metadata n) (ha : t.body.auxHash = [] ∨ t.body.auxHash.length = 32)
    (hb : Transaction.bytes C t k = .ok bs) (hlen : bs.length < 2 ^ 61) (hov : l.txFeeFixed.toNat + l.txFeePerByte.toNat * (bs.length + 8) < 2 ^ 64) :
    ∃ t' k', feeLoop C l 5 t k = .ok (t', k') ∧ t'.body.inputs = t.body.inputs ∧ t'.body.outputs = t.body.outputs ∧ t'.body.ttl = t.body.ttl ∧ t'.witness = t.witness ∧
      t'.valid = t.valid ∧ t'.metadata = t.metadata ∧
      ∀ k'' bs', Transaction.bytes C t' k'' = .ok bs' → t'.body.fee.toNat = l.txFeeFixed.toNat + l.txFeePerByte.toNat * bs'.length := by
  obtain ⟨outs, ho⟩ := bytes_outs C t k bs hb
  obtain ⟨bs0, q1, q2⟩ := bytes_size C hH t k n outs hs ho ha
  rw [hb] at q1; injection q1 with q1; subst q1
  have hu := uintSize_le t.body.fee.toNat
  let g : Nat → Nat := fun x => l.txFeeFixed.toNat + l.txFeePerByte.toNat * (restSize t n outs + uintSize x)
  obtain ⟨f, aux, e1, e2, e3, e4, e5⟩ := feeLoop_ok C hH l n outs g (restSize t n outs) (fun _ => rfl)
    (by have := Nat.mul_le_mul_left l.txFeePerByte.toNat (show restSize t n outs + 9 ≤ bs.length + 8 by omega); omega) (by omega) 5 t k hs ho ha rfl
  refine ⟨_, _, e1, rfl, rfl, rfl, rfl, rfl, rfl, ?_⟩
  intro k'' bs' hb'
  obtain ⟨bs1, r1, r2⟩ := bytes_size C hH { t with body := { t.body with fee := f, auxHash := aux } } k'' n outs hs ho e3
  have r3 : bs' = bs1 := Res.ok.inj (hb'.symm.trans r1)
  rw [r3, r2, e4]
  show f.toNat = g f.toNat
  rw [e2]
  exact (five_steps _ _ _ t.body.fee.toNat g (fun _ => rfl)).symm

/-- **C98, two passes** are enough if the fixed part is at least 65536 and the fee is below 2^32, as on the networks in use. -/
theorem C98_two_passes (C : Crypto) (hH : ∀ m, (C.blake256 m).length = 32) (l : LinearFee) (t : Tx) (k n : Nat) (bs : Bytes)
    (hs : Steady t.metadata n) (ha : t.body.auxHash = [] ∨ t.body.auxHash.length = 32)
    (hb : Transaction.bytes C t k = .ok bs) (hlen : bs.length < 2 ^ 61) (hfix : 65536 ≤ l.txFeeFixed.toNat)
    (hov : l.txFeeFixed.toNat + l.txFeePerByte.toNat * (bs.length + 8) < 2 ^ 32) :
    ∃ t' k', feeLoop C l 2 t k = .ok (t', k') ∧
      ∀ k'' bs', Transaction.bytes C t' k'' = .ok bs' → t'.body.fee.toNat = l.txFeeFixed.toNat + l.txFeePerByte.toNat * bs'.length := by
  obtain ⟨outs, ho⟩ := bytes_outs C t k bs hb
  obtain ⟨bs0, q1, q2⟩ := bytes_size C hH t k n outs hs ho ha
  rw [hb] at q1; injection q1 with q1; subst q1
  have hu := uintSize_le t.body.fee.toNat
  let g : Nat → Nat := fun x => l.txFeeFixed.toNat + l.txFeePerByte.toNat * (restSize t n outs + uintSize x)
  have hm := Nat.mul_le_mul_left l.txFeePerByte.toNat (show restSize t n outs + 9 ≤ bs.length + 8 by omega)
  obtain ⟨f, aux, e1, e2, e3, e4, e5⟩ := feeLoop_ok C hH l n outs g (restSize t n outs) (fun _ => rfl) (by omega) (by omega) 2 t k hs ho ha rfl
  refine ⟨_, _, e1, ?_⟩
  intro k'' bs' hb'
  obtain ⟨bs1, r1, r2⟩ := bytes_size C hH { t with body := { t.body with fee := f, auxHash := aux } } k'' n outs hs ho e3
  have r3 : bs' = bs1 := Res.ok.inj (hb'.symm.trans r1)
  rw [r3, r2, e4]
  show f.toNat = g f.toNat
  rw [e2]
  have five : ∀ x, uintSize (g x) = 5 := by
    intro x
    have := Nat.mul_le_mul_left l.txFeePerByte.toNat (Nat.add_le_add_left (uintSize_le x).2 (restSize t n outs))
    have hgx : g x = l.txFeeFixed.toNat + l.txFeePerByte.toNat * (restSize t n outs + uintSize x) := rfl
    generalize g x = y at hgx
    have h1 : 65536 ≤ y := by omega
    have h2 : y < 2 ^ 32 := by omega
    unfold uintSize
    rw [if_neg (by omega), if_neg (by omega), if_neg (by omega), if_pos h2]
  show g (g t.body.fee.toNat) = g (g (g t.body.fee.toNat))
  show l.txFeeFixed.toNat + l.txFeePerByte.toNat * (restSize t n outs + uintSize (g t.body.fee.toNat)) =
    l.txFeeFixed.toNat + l.txFeePerByte.toNat * (restSize t n outs + uintSize (g (g t.body.fee.toNat)))
  rw [five, five]

/-- The transaction of the examples: 10 ada in, 5 ada to an address of the golden files, one placeholder witness, no fee yet. -/
def handTx : Tx :=
  ByHand.setWitness (ByHand.AddOutputs (ByHand.AddInputs ByHand.NewTx [⟨List.replicate 32 7, 0, 10000000⟩]) [⟨sampleAddr, 5000000⟩])
    [ByHand.NewVKeyWitness (List.replicate 32 0) (List.replicate 64 0)]

/-- Fee of the transaction after a number of passes. -/
def feeAfter (C : Crypto) (l : LinearFee) (n : Nat) (t : Tx) : Option (UInt64 × Option Nat) :=
  match feeLoop C l n t 0 with
  | .ok (t', k) => some (t'.body.fee, sizeOf? (Transaction.bytes C t' k))
  | _ => none

/-- C98: with the parameters of the main network the first pass gives 164841, while the transaction with that fee has 219 bytes and costs 165017, which is what two and five passes give. -/
example : feeAfter sampleCrypto ⟨44, 155381⟩ 1 handTx = some (164841, some 219) ∧ 44 * 219 + 155381 = 165017 ∧
    feeAfter sampleCrypto ⟨44, 155381⟩ 2 handTx = some (165017, some 219) ∧ feeAfter sampleCrypto ⟨44, 155381⟩ 5 handTx = some (165017, some 219) := by
  decide +kernel

/-- C98: the hypotheses of all four theorems are met. -/
example (C : Crypto) : ∃ bs t' k' bs', Steady handTx.metadata 1 ∧ (handTx.body.auxHash = [] ∨ handTx.body.auxHash.length = 32) ∧
    BodyFits handTx.body ∧ WitnessFits handTx.witness ∧ (∀ md k b, handTx.metadata = some md → md.enc k = .ok b → ∃ x, parse b = some x) ∧
    Transaction.bytes C handTx 0 = .ok bs ∧ bs.length < 2 ^ 61 ∧
    (⟨44, 155381⟩ : LinearFee).txFeeFixed.toNat + (⟨44, 155381⟩ : LinearFee).txFeePerByte.toNat * (bs.length + 8) < 2 ^ 32 ∧ handTx.body.fee.toNat < 24 ∧
    feePass C ⟨44, 155381⟩ handTx 0 = .ok (t', k') ∧ Transaction.bytes C t' 2 = .ok bs' := by
  have h1 : sizeOf? (Transaction.bytes sampleCrypto handTx 0) = some 215 := by decide +kernel
  have h2 : Transaction.bytes C handTx 0 = Transaction.bytes sampleCrypto handTx 0 := rfl
  cases e : Transaction.bytes sampleCrypto handTx 0 with
  | err _ => rw [e] at h1; cases h1
  | panic => rw [e] at h1; cases h1
  | ok bs =>
    rw [e] at h1 h2
    injection h1 with h1
    obtain ⟨f, hf⟩ : ∃ f, fee C ⟨44, 155381⟩ handTx 0 = .ok f := ⟨_, (C19_fee_linear C _ handTx 0).1 bs h2⟩
    have hfit : BodyFits handTx.body := by
      refine ⟨(by decide : 1 < 2 ^ 63), (by decide : 1 < 2 ^ 63), ?_, ?_, (by decide : 0 < 2 ^ 63)⟩
      · intro i hi; rw [List.mem_singleton.1 hi]; exact (by decide : (List.replicate 32 (7 : UInt8)).length < 2 ^ 63)
      · intro o ho; rw [List.mem_singleton.1 ho]; exact (by decide +kernel : (Addr.bytes sampleAddr).length < 2 ^ 63)
    have hwf : WitnessFits handTx.witness := by
      refine ⟨(by decide : 1 < 2 ^ 63), ?_⟩
      intro w hw; rw [List.mem_singleton.1 hw]; exact ⟨by decide, by decide⟩
    refine ⟨bs, ByHand.SetFee handTx f, 2, _, fun _ => ⟨encNil, rfl, rfl⟩, .inl rfl, hfit, hwf, nofun, h2, by omega, ?_, by decide, ?_, rfl⟩
    · rw [h1]; decide
    · unfold feePass; rw [hf]; rfl

/-! ### C99: the bytes of the body -/

/-- **C99.** After a successful `Hash`, `Bytes` of the body gives the bytes whose hash is the transaction id, and `Hex` of the body the same in hexadecimal. -/
theorem C99_body_is_hashed (C : Crypto) (t : Tx) (k : Nat) (h : Bytes) (hh : Transaction.hash C t k = .ok h) :
    ∃ body, bodyBytes (afterAux C t k).body = .ok body ∧ h = C.blake256 body ∧ bodyHex (afterAux C t k).body = .ok (Hex.encode body) := by
  obtain ⟨b, h1, hh⟩ := bind_ok hh
  obtain ⟨body, h2, hh⟩ := bind_ok hh
  injection hh with hh
  have e : (afterAux C t k).body = b := by unfold afterAux; rw [h1]
  refine ⟨body, by rw [e]; exact h2, hh.symm, ?_⟩
  unfold bodyHex bodyBytes
  rw [e, h2]; rfl

/-- **C99, inside the transaction.** After a successful `Bytes` of a transaction, `Bytes` of its body gives the first element of the transaction; the ledger takes the hash of
just these bytes as the transaction id. -/
theorem C99_body_in_bytes (C : Crypto) (hH : ∀ m, (C.blake256 m).length = 32) (t : Tx) (k : Nat) (bs : Bytes) (hb : BodyFits t.body)
    (h : Transaction.bytes C t k = .ok bs) :
    ∃ body rest x, bodyBytes (afterAux C t k).body = .ok body ∧ bs = 0x84 :: (body ++ rest) ∧ parse body = some x ∧ parseFirst (body ++ rest) = some (x, rest) ∧
      ∀ v, read bs = some v → v.body = body := by
  obtain ⟨b, hc, h⟩ := bind_ok h
  obtain ⟨body, m, h1, h2, h3⟩ := marshalTx_parts _ _ _ h
  have e : (afterAux C t k).body = b := by unfold afterAux; rw [hc]
  have hf : BodyFits b := by
    unfold calcAux at hc
    split at hc
    · injection hc with hc; rw [← hc]; exact hb
    · split at hc
      · injection hc with hc; rw [← hc]; exact ⟨hb.inputs, hb.outputs, hb.hashes, hb.addrs, by simp only [hH]; decide⟩
      · cases hc
      · cases hc
  have he := body_enc b hf body h1
  rw [List.append_assoc, List.append_assoc] at h3
  refine ⟨body, _, bodyItem b, by rw [e]; exact h1, h3, ?_, he.parseFirst _, ?_⟩
  · have := he.parseFirst []
    unfold parse
    rw [List.append_nil] at this
    rw [this]
  · intro v hv
    rw [h3] at hv
    unfold Ledger.read at hv
    dsimp only at hv
    rw [if_pos rfl, he.parseFirst] at hv
    simp only [Option.bind_eq_bind, Option.bind_some] at hv
    obtain ⟨⟨w, r2⟩, -, hv⟩ := Option.bind_eq_some_iff.1 hv
    obtain ⟨⟨v', r3⟩, -, hv⟩ := Option.bind_eq_some_iff.1 hv
    obtain ⟨⟨x, r4⟩, -, hv⟩ := Option.bind_eq_some_iff.1 hv
    dsimp only at hv
    split at hv
    · unfold Ledger.assemble at hv
      simp only [Option.bind_eq_bind] at hv
      obtain ⟨_, -, hv⟩ := Option.bind_eq_some_iff.1 hv
      obtain ⟨_, -, hv⟩ := Option.bind_eq_some_iff.1 hv
      obtain ⟨_, -, hv⟩ := Option.bind_eq_some_iff.1 hv
      obtain ⟨_, -, hv⟩ := Option.bind_eq_some_iff.1 hv
      obtain ⟨_, -, hv⟩ := Option.bind_eq_some_iff.1 hv
      obtain ⟨_, -, hv⟩ := Option.bind_eq_some_iff.1 hv
      obtain ⟨_, -, hv⟩ := Option.bind_eq_some_iff.1 hv
      obtain ⟨_, -, hv⟩ := Option.bind_eq_some_iff.1 hv
      obtain ⟨_, -, hv⟩ := Option.bind_eq_some_iff.1 hv
      split at hv
      · injection hv with hv
        rw [← hv]
        simp
      · cases hv
    · cases hv

/-- **C99, too early.** With metadata, before any of `Hash`, `Bytes`, `Hex`, `Fee` and `CalculateAuxiliaryDataHash` has been called, `Bytes` of the body gives other bytes than those
that are hashed for the transaction id: the entry for the metadata is missing. -/
theorem C99_too_early (C : Crypto) (hH : ∀ m, (C.blake256 m).length = 32) (t : Tx) (md : Metadata) (k : Nat) (h b0 : Bytes)
    (hm : t.metadata = some md) (ha : t.body.auxHash = []) (h0 : bodyBytes t.body = .ok b0) (hh : Transaction.hash C t k = .ok h) :
    ∃ body, h = C.blake256 body ∧ body.length = b0.length + 35 := by
  obtain ⟨b, h1, hh⟩ := bind_ok hh
  obtain ⟨body, h2, hh⟩ := bind_ok hh
  injection hh with hh
  refine ⟨body, hh.symm, ?_⟩
  obtain ⟨outs, o1, o2⟩ := body_length t.body b0 h0 (.inl ha)
  unfold calcAux at h1
  rw [hm] at h1
  cases e : md.enc k with
  | err _ => simp only [e] at h1; cases h1
  | panic => simp only [e] at h1; cases h1
  | ok m =>
    simp only [e] at h1
    injection h1 with h1
    subst h1
    obtain ⟨outs', p1, p2⟩ := body_length _ body h2 (.inr (hH m))
    have p1 : collect (t.body.outputs.map marshalOutput) = .ok outs' := p1
    rw [o1] at p1
    injection p1 with p1
    subst p1
    rw [if_pos ha] at o2
    have hne : ¬ C.blake256 m = [] := by intro hc; have := hH m; rw [hc] at this; cases this
    dsimp only at p2
    rw [if_neg hne] at p2
    omega

/-- C99: the sample transaction with metadata that is encoded as an empty map meets the hypotheses; the hash then is that of the body with the entry for the metadata. -/
example (C : Crypto) : ∃ h b0, (ByHand.setMetadata handTx (some ⟨fun _ => .ok [0xa0]⟩)).body.auxHash = [] ∧
    bodyBytes (ByHand.setMetadata handTx (some ⟨fun _ => .ok [0xa0]⟩)).body = .ok b0 ∧
    Transaction.hash C (ByHand.setMetadata handTx (some ⟨fun _ => .ok [0xa0]⟩)) 0 = .ok h := ⟨_, _, rfl, rfl, rfl⟩

/-! ### C100: signing by hand -/

/-- What the ledger finds in the bytes of any transaction with readable parts. -/
theorem hand_read (C : Crypto) (hH : ∀ m, (C.blake256 m).length = 32) (t : Tx) (k : Nat) (bs : Bytes) (hmd : GoodMetadata t.metadata)
    (hn : t.metadata = none → t.body.auxHash = []) (hv : t.valid = true) (hi : ∀ i ∈ t.body.inputs, i.txHash.length = 32) (hil : t.body.inputs.length < 2 ^ 63)
    (ho : ∀ o ∈ t.body.outputs, OutputAddress (Addr.bytes o.address)) (hol : t.body.outputs.length < 2 ^ 63)
    (hw : ∀ w ∈ t.witness, w.vkey.length = 32 ∧ w.signature.length = 64) (hwl : t.witness.length < 2 ^ 63) (h : Transaction.bytes C t k = .ok bs) :
    ∃ b body aux, (∀ k', calcAux C t k' = .ok b) ∧ marshalBody b = .ok body ∧ read bs = some (seen b t.witness body aux bs.length) ∧
      b.inputs = t.body.inputs ∧ b.outputs = t.body.outputs ∧ b.fee = t.body.fee ∧ b.ttl = t.body.ttl ∧
      (if b.auxHash = [] then none else some b.auxHash) = aux.map C.blake256 ∧
      (t.metadata = none ∧ aux = none ∨ ∃ d m, t.metadata = some d ∧ (∀ k, d.enc k = .ok m) ∧ aux = some m) := by
  obtain ⟨m, x, hm, hx, hnn, hss⟩ := goodMetadata_enc _ hmd
  have hc : ∀ k', calcAux C t k' = .ok { t.body with auxHash := auxOf C t.metadata t.body.auxHash m } := fun k' => calcAux_of C t m k' (hm k')
  generalize hb : ({ t.body with auxHash := auxOf C t.metadata t.body.auxHash m } : TxBody) = b at hc
  unfold Transaction.bytes at h
  rw [hc k] at h
  simp only [Res.ok_bind] at h
  obtain ⟨body, m', h1, h2, h3⟩ := marshalTx_parts _ _ _ h
  have h2 : marshalMetadata t.metadata (k + 1) = .ok m' := h2
  rw [hm] at h2
  injection h2 with h2
  subst h2
  have e1 : b.inputs = t.body.inputs := by rw [← hb]
  have e2 : b.outputs = t.body.outputs := by rw [← hb]
  have ea : b.auxHash = auxOf C t.metadata t.body.auxHash m := by rw [← hb]
  have haux : b.auxHash = [] ∧ t.metadata = none ∨ b.auxHash = C.blake256 m ∧ t.metadata ≠ none := by
    rw [ea]
    cases hc : t.metadata with
    | none => exact .inl ⟨hn hc, rfl⟩
    | some d => exact .inr ⟨rfl, nofun⟩
  have hbf : BodyFits b := by
    refine ⟨by rw [e1]; exact hil, by rw [e2]; exact hol, ?_, ?_, ?_⟩
    · intro i hi'; rw [e1] at hi'; rw [hi i hi']; decide
    · intro o ho'; rw [e2] at ho'; exact outputAddress_fits _ (ho o ho')
    · rcases haux with ⟨e, -⟩ | ⟨e, -⟩
      · rw [e]; decide
      · rw [e, hH]; decide
  have hr := Ledger.read_bytes b t.witness t.valid body m x hbf ⟨hwl, fun w hw' => by have := hw w hw'; omega⟩ h1 hx
  rw [← show bs = _ from h3, hv] at hr
  obtain ⟨aux, ha1, ha2, ha3⟩ : ∃ aux, readAux x m = some aux ∧ (if b.auxHash = [] then none else some b.auxHash) = aux.map C.blake256 ∧
      (t.metadata = none ∧ aux = none ∨ ∃ d m, t.metadata = some d ∧ (∀ k, d.enc k = .ok m) ∧ aux = some m) := by
    rcases haux with ⟨e, hm0⟩ | ⟨e, hm0⟩
    · exact ⟨none, (hnn hm0).2, by rw [e]; rfl, .inl ⟨hm0, rfl⟩⟩
    · refine ⟨some m, hss hm0, ?_, ?_⟩
      · rw [e, if_neg]
        · rfl
        · intro h0
          have := hH m
          rw [h0] at this
          cases this
      · cases hd : t.metadata with
        | none => exact absurd hd hm0
        | some d => exact .inr ⟨d, m, rfl, fun k => by have := hm k; rw [hd] at this; exact this, rfl⟩
  dsimp only at hr
  rw [if_pos rfl, Ledger.assemble_ok bs.length b t.witness x body m aux (by rw [e1]; exact hi) (by rw [e2]; exact ho) hw ha1] at hr
  exact ⟨b, body, aux, hc, h1, hr, e1, e2, by rw [← hb], by rw [← hb], ha2, ha3⟩

/-- Witnesses made from keys: one for each key, with the public key of that key, valid. -/
theorem witnessesOf_valid (H : Hashes) (hH : H.Ok) (blake256 : Bytes → Bytes) (msg : Bytes) (keys : List Bytes)
    (hk : ∀ k ∈ keys, k.length = 96 ∧ leNat (k.take 32) < 2 ^ 255) : ∀ ws, witnessesOf (packageCrypto H blake256) msg keys = .ok ws →
    (∀ w ∈ ws, Valid H.sha512 w.vkey msg w.signature) ∧
    ∀ key ∈ keys, ∀ pk, (packageCrypto H blake256).publicKey key = .ok pk → ∃ w ∈ ws, w.vkey = pk := by
  induction keys with
  | nil => intro ws e; injection e with e; subst e; exact ⟨nofun, nofun⟩
  | cons key ks ih =>
    intro ws e
    obtain ⟨w, e1, e⟩ := bind_ok e
    obtain ⟨ws', e2, e⟩ := bind_ok e
    injection e with e
    subst e
    obtain ⟨i1, i2⟩ := ih (fun x hx => hk x (by simp [hx])) ws' e2
    obtain ⟨hl, hs⟩ := hk key (by simp)
    obtain ⟨pk, p1, e1⟩ := bind_ok e1
    obtain ⟨sg, p2, e1⟩ := bind_ok e1
    have ew : w = ⟨pk, sg⟩ := (Res.ok.inj e1).symm
    obtain ⟨sig, pk', r1, r2, r3⟩ := C37_signature_valid H hH key hl hs msg
    have p1' := p1
    rw [packageCrypto_publicKey H blake256 key hl hs, r2] at p1'
    injection p1' with p1'
    subst p1'
    have p2' : Bip32.Sign H key msg = .ok sg := p2
    rw [r1] at p2'
    injection p2' with p2'
    subst p2'
    refine ⟨?_, ?_⟩
    · intro w' hw'
      rcases List.mem_cons.1 hw' with rfl | hw'
      · rw [ew]; exact r3
      · exact i1 w' hw'
    · intro k hk' pk hpk
      rcases List.mem_cons.1 hk' with rfl | hk'
      · rw [p1] at hpk
        injection hpk with hpk
        exact ⟨w, by simp, by rw [ew]; exact hpk⟩
      · obtain ⟨w', m1, m2⟩ := i2 k hk' pk hpk
        exact ⟨w', List.mem_cons_of_mem _ m1, m2⟩

/-- **C100, unsigned.** No ledger state accepts a transaction without witnesses. -/
theorem C100_unsigned_rejected (C : Crypto) (hH : ∀ m, (C.blake256 m).length = 32) (LC : Ledger.Crypto) (e : Env) (u : UTxO) (t : Tx) (k : Nat) (bs : Bytes)
    (hw : t.witness = []) (hmd : GoodMetadata t.metadata) (hf : BodyFits t.body) (h : Transaction.bytes C t k = .ok bs) : ¬ Ledger.Valid LC e u bs := by
  rintro ⟨v, hv, ha⟩
  obtain ⟨m, x, hm, hx, -⟩ := goodMetadata_enc _ hmd
  unfold Transaction.bytes at h
  rw [calcAux_of C t m k (hm k)] at h
  simp only [Res.ok_bind] at h
  obtain ⟨body, m', h1, h2, h3⟩ := marshalTx_parts _ _ _ h
  have h2 : marshalMetadata t.metadata (k + 1) = .ok m' := h2
  rw [hm] at h2
  injection h2 with h2
  subst h2
  have hr := Ledger.read_bytes { t.body with auxHash := auxOf C t.metadata t.body.auxHash m } t.witness t.valid body m x ⟨hf.inputs, hf.outputs, hf.hashes, hf.addrs, by
      show (auxOf C t.metadata t.body.auxHash m).length < _
      cases t.metadata with
      | none => exact hf.aux
      | some d => show (C.blake256 m).length < _; rw [hH]; decide⟩ (by rw [hw]; exact ⟨by decide, nofun⟩) h1 hx
  rw [← show bs = _ from h3] at hr
  dsimp only at hr
  rw [hv] at hr
  obtain ⟨aux, -, rfl, -⟩ := Ledger.assemble_of _ _ _ _ _ _ _ _ hr.symm
  obtain ⟨r, hr⟩ := List.exists_mem_of_ne_nil _ ha.nonempty
  obtain ⟨o, ho⟩ := Option.isSome_iff_exists.1 (ha.exist r hr)
  obtain ⟨w, hw', -⟩ := ha.unlocked r hr o ho
  have hw' : w ∈ t.witness.map witOf := hw'
  rw [hw] at hw'
  cases hw'

theorem hexDecode_length : ∀ b : Bytes, (Hex.decode b).1.length ≤ b.length
  | [] => by simp [Hex.decode]
  | [_] => by unfold Hex.decode; split <;> simp
  | a :: b :: rest => by
    have := hexDecode_length rest
    unfold Hex.decode
    split
    · rcases e : Hex.decode rest with ⟨x, y⟩
      rw [e] at this
      have this : x.length ≤ rest.length := this
      simp only [List.length_cons]
      omega
    · simp only [List.length_nil, List.length_cons]; omega

/-- **C100, the program of the README.** It prints the bytes of a transaction, but without a signature: no ledger state accepts it. -/
theorem C100_readme_rejected (C : Crypto) (hH : ∀ m, (C.blake256 m).length = 32) (hash : Bytes) (index : UInt16) (receiver : Address) (hh : hash.length < 2 ^ 63)
    (ha : AddressFits receiver) (hr : ∃ b, marshalAddress receiver = .ok b) :
    ∃ bs, ByHand.readme C hash index receiver = .ok (Hex.encode bs) ∧ ∀ LC e u, ¬ Ledger.Valid LC e u bs := by
  let t : Tx := ByHand.setTTL (ByHand.SetFee (ByHand.AddOutputs (ByHand.AddInputs ByHand.NewTx [NewTxInput hash index 10000000]) [⟨receiver, 5000000⟩]) 170000) 505050505
  obtain ⟨outs, ho⟩ := collect_total t.body.outputs (by intro o ho; rw [List.mem_singleton.1 ho]; exact hr)
  obtain ⟨bs, h1, -⟩ := bytes_size C hH t 0 1 outs (fun k => ⟨encNil, rfl, rfl⟩) ho (.inl rfl)
  refine ⟨bs, ?_, fun LC e u => C100_unsigned_rejected C hH LC e u t 0 bs rfl (.inl rfl) ?_ h1⟩
  · show Transaction.hex C t 0 = _
    unfold Transaction.hex
    rw [h1]; rfl
  · refine ⟨(by decide : 1 < 2 ^ 63), (by decide : 1 < 2 ^ 63), ?_, ?_, (by decide : 0 < 2 ^ 63)⟩
    · intro i hi
      rw [List.mem_singleton.1 hi]
      exact Nat.lt_of_le_of_lt (hexDecode_length hash) hh
    · intro o ho
      rw [List.mem_singleton.1 ho]; exact ha

/-- The change only shrinks when the fee is taken from it, so the encoded outputs do not grow. -/
theorem outs_shrink (l : List TxOutput) (a : Address) (x y : UInt64) (hxy : y.toNat ≤ x.toNat) (outs : List Bytes) (hl : l.length < 2 ^ 63)
    (h : collect ((l ++ [(⟨a, x⟩ : TxOutput)]).map marshalOutput) = .ok outs) :
    ∃ outs', collect ((l ++ [(⟨a, y⟩ : TxOutput)]).map marshalOutput) = .ok outs' ∧ (encArray outs').length ≤ (encArray outs).length := by
  obtain ⟨as, o, h1, h2, h3⟩ := (collect_append l _ outs).1 h
  obtain ⟨ab, g1, g2⟩ := output_length a x o h2
  have g3 : marshalOutput ⟨a, y⟩ = .ok (encArray [ab, encUint y]) := by unfold marshalOutput; rw [g1]; rfl
  obtain ⟨ab', g4, g5⟩ := output_length a y _ g3
  rw [g1] at g4
  injection g4 with g4
  subst g4
  have hal : ∀ (l : List TxOutput) (as : List Bytes), collect (l.map marshalOutput) = .ok as → as.length = l.length := by
    intro l
    induction l with
    | nil => intro as e; injection e with e; rw [← e]; rfl
    | cons z l ih =>
      intro as e
      obtain ⟨_, -, e⟩ := bind_ok e
      obtain ⟨bs, eb, e⟩ := bind_ok e
      injection e with e
      rw [← e, List.length_cons, List.length_cons, ih bs eb]
  have hal := hal l as h1
  refine ⟨as ++ [encArray [ab, encUint y]], (collect_append l _ _).2 ⟨as, _, h1, g3, rfl⟩, ?_⟩
  rw [h3, encArray_snoc_length _ _ (by omega), encArray_snoc_length _ _ (by omega), g2, g5]
  have := uintSize_mono hxy
  omega

/-- **C100.** A transaction made by hand - placeholder witnesses for all keys, five times `Fee` and `SetFee`, the fee taken from the change, `Hash`, one witness for each key, `Bytes` - is
accepted by the ledger: for any number of keys, any fee parameters, any amounts and any deterministic metadata, if the inputs are unspent outputs of these keys and stated correctly, the
receiving addresses are of the network, and there is enough to leave the outputs and the change above the minimum. (The builder fails here for two keys, C82.) -/
theorem C100_pay_accepted (H : Hashes) (hH : H.Ok) (blake224 blake256 : Bytes → Bytes) (h256 : ∀ m, (blake256 m).length = 32)
    (p : Payment) (pks : List Bytes) (u : UTxO) (e : Env) (ds : Bytes) (d : Tx) (kd : Nat)
    (hk : ∀ k ∈ p.keys, k.length = 96 ∧ leNat (k.take 32) < 2 ^ 255) (hkl : p.keys.length < 2 ^ 63)
    (hpk : ∀ pk ∈ pks, ∃ key ∈ p.keys, (packageCrypto H blake256).publicKey key = .ok pk)
    (hu : Agrees blake224 u pks p.inputs) (hne : p.inputs ≠ []) (hdis : (p.inputs.map refOf).Nodup) (hlen : p.inputs.length < 2 ^ 63)
    (hout : ∀ o ∈ p.outputs, Receives e.network (Addr.bytes o.address) ∧ e.minUTxOValue ≤ o.amount.toNat) (hol : p.outputs.length < 2 ^ 62)
    (hch : Receives e.network (Addr.bytes p.change)) (hmd : GoodMetadata p.metadata) (httl : p.ttl ≠ 0 → e.slot < p.ttl.toNat)
    (he : e.minFeeA = p.fees.txFeePerByte.toNat ∧ e.minFeeB = p.fees.txFeeFixed.toNat)
    (hds : Transaction.bytes (packageCrypto H blake256) p.draft 0 = .ok ds) (hsize : ds.length + 8 ≤ e.maxTxSize) (hmax : e.maxTxSize < 2 ^ 61)
    (hov : p.fees.txFeeFixed.toNat + p.fees.txFeePerByte.toNat * e.maxTxSize < 2 ^ 64)
    (hd : feeLoop (packageCrypto H blake256) p.fees 5 p.draft 0 = .ok (d, kd)) (hI : sumIn p.inputs < 2 ^ 64)
    (hcover : sumOut p.outputs + d.body.fee.toNat + e.minUTxOValue ≤ sumIn p.inputs) :
    ∃ bs v, pay (packageCrypto H blake256) p = .ok bs ∧ read bs = some v ∧ Ledger.Accepts (ledgerCrypto H blake224 blake256) e u v ∧
      v.inputs = p.inputs.map refOf ∧
      v.outputs = p.outputs.map outOf ++ [(Addr.bytes p.change, sumIn p.inputs - sumOut p.outputs - d.body.fee.toNat)] ∧ v.fee = d.body.fee.toNat ∧
      (v.ttl = if p.ttl = 0 then none else some p.ttl.toNat) ∧
      (p.metadata = none ∧ v.aux = none ∨ ∃ d m, p.metadata = some d ∧ (∀ k, d.enc k = .ok m) ∧ v.aux = some m) := by
  obtain ⟨m, x, hm, -⟩ := goodMetadata_enc _ hmd
  have hCH : ∀ m, ((packageCrypto H blake256).blake256 m).length = 32 := h256
  have hbl : (packageCrypto H blake256).blake256 = blake256 := rfl
  have hkey := package_key_length H blake256
  have hsig := package_sig_length H hH blake256
  have hval := fun msg => witnessesOf_valid H hH blake256 msg p.keys hk
  have htot := fun msg => witnessesOf_total H hH blake256 msg p.keys hk
  generalize packageCrypto H blake256 = C at *
  have hst : Steady p.metadata m.length := fun k => ⟨m, hm k, rfl⟩
  -- the draft
  have dI : p.draft.body.inputs = p.inputs := by
    simp only [Payment.draft, ByHand.setWitness, ByHand.setMetadata, ByHand.setTTL, ByHand.AddOutputs, ByHand.AddInputs, ByHand.NewTx, List.nil_append]
    exact List.take_append_drop 1 p.inputs
  have dO : p.draft.body.outputs = p.outputs ++ [⟨p.change, totalIn p.inputs - totalOut p.outputs⟩] := by
    simp [Payment.draft, ByHand.setWitness, ByHand.setMetadata, ByHand.setTTL, ByHand.AddOutputs, ByHand.AddInputs, ByHand.NewTx]
  have dM : p.draft.metadata = p.metadata := rfl
  have dT : p.draft.body.ttl = p.ttl := rfl
  have dA : p.draft.body.auxHash = [] := rfl
  have dV : p.draft.valid = true := rfl
  have dWl : p.draft.witness.length = p.keys.length := by
    show (ByHand.NewTXWitness _).length = _
    unfold ByHand.NewTXWitness
    split
    · rename_i h; rw [List.length_map] at h; rw [h]; rfl
    · rw [List.length_map]
  have dWs : StdWit p.draft.witness := by
    intro w hw
    have hw : w ∈ ByHand.NewTXWitness _ := hw
    unfold ByHand.NewTXWitness at hw
    split at hw
    · cases hw
    · obtain ⟨_, -, rfl⟩ := List.mem_map.1 hw
      exact ⟨by decide, by decide⟩
  generalize hdr : p.draft = dr at *
  obtain ⟨outs, ho⟩ := bytes_outs C dr 0 ds hds
  obtain ⟨bs0, q1, q2⟩ := bytes_size C hCH dr 0 m.length outs (by rw [dM]; exact hst) ho (.inl dA)
  rw [hds] at q1
  have q1 := Res.ok.inj q1
  subst q1
  have hu0 := uintSize_le dr.body.fee.toNat
  let g : Nat → Nat := fun x => p.fees.txFeeFixed.toNat + p.fees.txFeePerByte.toNat * (restSize dr m.length outs + uintSize x)
  have hmm := Nat.mul_le_mul_left p.fees.txFeePerByte.toNat (show restSize dr m.length outs + 9 ≤ e.maxTxSize by omega)
  obtain ⟨f, aux, e1, e2, e3, e4, e5⟩ := feeLoop_ok C hCH p.fees m.length outs g (restSize dr m.length outs) (fun _ => rfl)
    (by omega) (by omega) 5 dr 0 (by rw [dM]; exact hst) ho (.inl dA) rfl
  rw [hd] at e1
  have e1 := Res.ok.inj e1
  injection e1 with e1 ek
  have ef : d.body.fee = f := by rw [e1]
  have hfix : f.toNat = g f.toNat := by rw [e2]; exact (five_steps _ _ _ dr.body.fee.toNat g (fun _ => rfl)).symm
  rw [ef] at hcover ⊢
  -- the final transaction before signing
  have hc0 : (totalIn p.inputs - totalOut p.outputs).toNat = sumIn p.inputs - sumOut p.outputs := by
    have := change_toNat p.inputs p.outputs 0 hI (by omega)
    rw [show UInt64.ofNat 0 = 0 from rfl, UInt64.sub_zero] at this
    rw [this]; rfl
  have hc1 : (totalIn p.inputs - totalOut p.outputs - f).toNat = sumIn p.inputs - sumOut p.outputs - f.toNat := by
    have := change_toNat p.inputs p.outputs f.toNat hI (by omega)
    rw [UInt64.ofNat_toNat] at this
    exact this
  generalize hch' : totalIn p.inputs - totalOut p.outputs - f = change at *
  rw [dO] at ho
  obtain ⟨outs', o1, o2⟩ := outs_shrink p.outputs p.change _ change (by rw [hc0, hc1]; omega) outs (by omega) ho
  generalize ht : ({ d with body := { d.body with outputs := p.outputs ++ [⟨p.change, change⟩] } } : Tx) = t at *
  have tI : t.body.inputs = p.inputs := by rw [← ht, e1]; exact dI
  have tO : t.body.outputs = p.outputs ++ [⟨p.change, change⟩] := by rw [← ht]
  have tF : t.body.fee = f := by rw [← ht, e1]
  have tT : t.body.ttl = p.ttl := by rw [← ht, e1]; exact dT
  have tA : t.body.auxHash = aux := by rw [← ht, e1]
  have tM : t.metadata = p.metadata := by rw [← ht, e1]; exact dM
  have tV : t.valid = true := by rw [← ht, e1]; exact dV
  -- signing
  have hca := calcAux_of C t m kd (by rw [tM]; exact hm kd)
  have hca1 := afterAux_of C t m kd (by rw [tM]; exact hm kd)
  generalize hb1 : ({ t.body with auxHash := auxOf C t.metadata t.body.auxHash m } : TxBody) = b1 at *
  have bA : b1.auxHash = [] ∨ b1.auxHash.length = 32 := by
    rw [← hb1]
    exact (auxOf_size C hCH t.metadata t.body.auxHash m (by rw [tA]; exact e3)).1
  have bN : t.metadata = none → b1.auxHash = [] := by
    intro hn
    rw [← hb1]
    show auxOf C t.metadata t.body.auxHash m = []
    rw [hn, tA]
    show aux = []
    rw [e5 (by rw [dM, ← tM]; exact hn), dA]
  have bI : b1.inputs = p.inputs := by rw [← hb1]; exact tI
  have bO : b1.outputs = p.outputs ++ [⟨p.change, change⟩] := by rw [← hb1]; exact tO
  have bF : b1.fee = f := by rw [← hb1]; exact tF
  have bT : b1.ttl = p.ttl := by rw [← hb1]; exact tT
  obtain ⟨body, hbody⟩ : ∃ body, marshalBody b1 = .ok body := by
    unfold marshalBody; rw [bO, o1]; exact ⟨_, rfl⟩
  obtain ⟨ws, hws⟩ := htot (blake256 body)
  obtain ⟨hv1, hv2⟩ := hval (blake256 body) ws hws
  have hwl := witnessesOf_lengths C hkey hsig _ _ _ hws
  have hnw : ByHand.NewTXWitness ws = ws := by
    unfold ByHand.NewTXWitness
    split
    · rename_i h; exact (List.length_eq_zero_iff.1 h).symm
    · rfl
  have hsign : signWith C p.keys t kd = .ok (⟨b1, ws, true, p.metadata⟩, kd + 1) := by
    unfold signWith Transaction.hash
    rw [hca]
    simp only [Res.ok_bind, hbody]
    show (witnessesOf C (C.blake256 body) p.keys >>= _) = _
    rw [hbl, hws, hca1]
    simp only [Res.ok_bind, ByHand.setWitness, hnw, tV, tM]
    rfl
  generalize hs : (⟨b1, ws, true, p.metadata⟩ : Tx) = s at *
  have sB : s.body = b1 := by rw [← hs]
  have sW : s.witness = ws := by rw [← hs]
  have sM : s.metadata = p.metadata := by rw [← hs]
  have sV : s.valid = true := by rw [← hs]
  obtain ⟨bs, r1, r2⟩ := bytes_size C hCH s (kd + 1) m.length outs' (by rw [sM]; exact hst) (by rw [sB, bO]; exact o1) (by rw [sB]; exact bA)
  have hpay : pay C p = .ok bs := by
    unfold pay
    rw [hdr, hd]
    simp only [Res.ok_bind]
    have ht' : (⟨⟨d.body.inputs, p.outputs ++ [⟨p.change, change⟩], f, d.body.ttl, d.body.auxHash⟩, d.witness, d.valid, d.metadata⟩ : Tx) = t := by rw [← ht, ← ef]
    rw [ef, hch', ht', hsign]
    exact r1
  -- its size
  have hsz : bs.length ≤ restSize dr m.length outs + uintSize f.toNat := by
    rw [r2, sB, bF, ← e4]
    apply Nat.add_le_add_right
    unfold restSize
    have w1 := witness_length s.witness (by rw [sW]; exact hwl.2) (by rw [sW, hwl.1]; exact hkl)
    have w2 := witness_length dr.witness dWs (by rw [dWl]; exact hkl)
    rw [sW, hwl.1] at w1
    rw [dWl, ← w1] at w2
    dsimp only
    rw [w2, sW, sB, bI, bT, dI, dT, sM, dM]
    have ha : (if p.metadata.isNone = true ∧ b1.auxHash = [] then 0 else 35) = (if p.metadata.isNone = true ∧ aux = [] then 0 else 35) := by
      cases hpm : p.metadata with
      | none =>
        rw [bN (by rw [tM]; exact hpm), e5 (by rw [dM]; exact hpm), dA]
      | some d => simp
    rw [ha]
    omega
  -- reading
  have hrec : ∀ o ∈ p.outputs ++ [⟨p.change, change⟩], Receives e.network (Addr.bytes o.address) ∧ e.minUTxOValue ≤ o.amount.toNat := by
    intro o ho
    rcases List.mem_append.1 ho with ho | ho
    · exact hout o ho
    · rw [List.mem_singleton.1 ho]
      exact ⟨hch, by show _ ≤ change.toNat; rw [hc1]; omega⟩
  obtain ⟨b, body', aux', f1, f2, f3, f4, f5, f6, f7, f8, f9⟩ := hand_read C hCH s (kd + 1) bs (by rw [sM]; exact hmd)
    (by rw [sM, sB, ← tM]; exact bN) sV (by rw [sB, bI]; exact hu.ids) (by rw [sB, bI]; exact hlen)
    (by rw [sB, bO]; exact fun o ho => (hrec o ho).1.1) (by rw [sB, bO, List.length_append]; simp only [List.length_singleton]; omega)
    (by rw [sW]; exact hwl.2) (by rw [sW, hwl.1]; exact hkl) r1
  have hbb : b = b1 := by
    have := calcAux_of C s m 0 (by rw [sM]; exact hm 0)
    rw [f1 0] at this
    rw [Res.ok.inj this, sB, sM, ← hb1, tM]
    simp only [auxOf_idem]
  subst hbb
  rw [hbody] at f2
  have f2 := Res.ok.inj f2
  subst f2
  refine ⟨bs, _, hpay, f3, ?_, by show b.inputs.map refOf = _; rw [bI], ?_, by show b.fee.toNat = _; rw [bF], by rw [← bT]; rfl, by rw [← sM]; exact f9⟩
  rotate_left
  · show b.outputs.map outOf = _
    rw [bO, List.map_append, ← hc1]; rfl
  have hmul := Nat.mul_le_mul_left p.fees.txFeePerByte.toNat hsz
  have hgf : f.toNat = p.fees.txFeeFixed.toNat + p.fees.txFeePerByte.toNat * (restSize dr m.length outs + uintSize f.toNat) := hfix
  refine ⟨?_, ?_, ?_, ?_, ?_, ?_, ?_, ?_, ?_, ?_, by rw [hbl] at f8; exact f8⟩
  · intro n hn
    have hn : (if b.ttl = 0 then none else some b.ttl.toNat) = some n := hn
    rw [bT] at hn
    split at hn
    · cases hn
    · rename_i h0
      injection hn with hn
      rw [← hn]; exact httl h0
  · show b.inputs.map refOf ≠ []
    rw [bI]
    intro h0
    exact hne (List.map_eq_nil_iff.1 h0)
  · intro r hr
    have hr : r ∈ b.inputs.map refOf := hr
    rw [bI] at hr
    obtain ⟨i, hi, rfl⟩ := List.mem_map.1 hr
    obtain ⟨a, ha, -⟩ := hu.amounts i hi
    rw [ha]; rfl
  · show e.minFeeA * bs.length + e.minFeeB ≤ b.fee.toNat
    rw [he.1, he.2, bF]
    omega
  · show ∑ r ∈ (b.inputs.map refOf).toFinset, u.amount r = ((b.outputs.map outOf).map (·.2)).sum + b.fee.toNat
    rw [bI, List.sum_toFinset _ hdis, amounts_sum u _ (fun i hi => by obtain ⟨a, ha, _⟩ := hu.amounts i hi; exact ⟨a, ha⟩), sum_map_outOf, bO, bF]
    have : sumOut (p.outputs ++ [⟨p.change, change⟩]) = sumOut p.outputs + change.toNat := by simp [sumOut]
    rw [this, hc1]
    omega
  · intro o ho
    obtain ⟨o', ho', rfl⟩ := List.mem_map.1 (show o ∈ b.outputs.map outOf from ho)
    rw [bO] at ho'
    exact (hrec o' ho').2
  · intro o ho
    obtain ⟨o', ho', rfl⟩ := List.mem_map.1 (show o ∈ b.outputs.map outOf from ho)
    rw [bO] at ho'
    exact (hrec o' ho').1.2
  · show bs.length ≤ e.maxTxSize
    have := uintSize_le f.toNat
    omega
  · intro w' hw'
    have hw' : w' ∈ s.witness.map witOf := hw'
    rw [sW] at hw'
    obtain ⟨w, hw, rfl⟩ := List.mem_map.1 hw'
    exact hv1 w hw
  · intro r hr o ho
    have hr : r ∈ b.inputs.map refOf := hr
    rw [bI] at hr
    obtain ⟨i, hi, rfl⟩ := List.mem_map.1 hr
    obtain ⟨a, ha, pk, hpk', hpay⟩ := hu.amounts i hi
    rw [ho] at ha
    injection ha with ha
    subst ha
    obtain ⟨key, hkey', hpub⟩ := hpk pk hpk'
    obtain ⟨w, hw, hwk⟩ := hv2 key hkey' pk hpub
    refine ⟨witOf w, ?_, ?_⟩
    · show witOf w ∈ s.witness.map witOf
      rw [sW]; exact List.mem_map.2 ⟨w, hw, rfl⟩
    · show Ledger.LockedBy _ a w.vkey
      rw [hwk]; exact hpay

/-- A payment from two keys with the parameters of the main network. -/
def samplePayment (keys : List Bytes) : Payment :=
  ⟨⟨44, 155381⟩, keys, [⟨List.replicate 32 7, 0, 10000000⟩, ⟨List.replicate 32 7, 1, 5000000⟩], [⟨sampleAddr, 12000000⟩], sampleAddr, 0, none⟩

/-- C100: two different keys, one input of each, 15 ada in, 12 ada out. -/
example (H : Hashes) (hH : H.Ok) (blake224 blake256 : Bytes → Bytes) (h256 : ∀ m, (blake256 m).length = 32) :
    ∃ pk1 pk2 bs, (packageCrypto H blake256).publicKey sampleKey = .ok pk1 ∧ (packageCrypto H blake256).publicKey (List.replicate 96 2) = .ok pk2 ∧
      pay (packageCrypto H blake256) (samplePayment [sampleKey, List.replicate 96 2]) = .ok bs ∧
      Ledger.Valid (ledgerCrypto H blake224 blake256) ⟨44, 155381, 16384, 1000000, 1, 0⟩
        (fun r => if r = (List.replicate 32 7, 0) then some (0x61 :: blake224 pk1, 10000000) else if r = (List.replicate 32 7, 1) then some (0x61 :: blake224 pk2, 5000000) else none) bs := by
  have k2 : (List.replicate 96 (2 : UInt8)).length = 96 ∧ leNat ((List.replicate 96 (2 : UInt8)).take 32) < 2 ^ 255 := by decide +kernel
  obtain ⟨_, pk1, -, s1, -⟩ := C37_signature_valid H hH sampleKey sampleKey_ok.1 sampleKey_ok.2 []
  obtain ⟨_, pk2, -, s2, -⟩ := C37_signature_valid H hH (List.replicate 96 2) k2.1 k2.2 []
  have p1 := packageCrypto_publicKey H blake256 sampleKey sampleKey_ok.1 sampleKey_ok.2
  have p2 := packageCrypto_publicKey H blake256 (List.replicate 96 2) k2.1 k2.2
  rw [s1] at p1
  rw [s2] at p2
  have h1 : sizeOf? (Transaction.bytes sampleCrypto (samplePayment [[], []]).draft 0) = some 417 := by decide +kernel
  have h2 : Transaction.bytes (packageCrypto H blake256) (samplePayment [sampleKey, List.replicate 96 2]).draft 0 = Transaction.bytes sampleCrypto (samplePayment [[], []]).draft 0 := rfl
  have h3 : feeAfter sampleCrypto ⟨44, 155381⟩ 5 (samplePayment [[], []]).draft = some (173905, some 421) := by decide +kernel
  have h4 : feeLoop (packageCrypto H blake256) ⟨44, 155381⟩ 5 (samplePayment [sampleKey, List.replicate 96 2]).draft 0 = feeLoop sampleCrypto ⟨44, 155381⟩ 5 (samplePayment [[], []]).draft 0 := rfl
  cases e : Transaction.bytes sampleCrypto (samplePayment [[], []]).draft 0 with
  | err _ => rw [e] at h1; cases h1
  | panic => rw [e] at h1; cases h1
  | ok ds =>
    unfold feeAfter at h3
    cases e' : feeLoop sampleCrypto ⟨44, 155381⟩ 5 (samplePayment [[], []]).draft 0 with
    | err _ => rw [e'] at h3; cases h3
    | panic => rw [e'] at h3; cases h3
    | ok r =>
      obtain ⟨d, kd⟩ := r
      rw [e] at h1 h2
      rw [e'] at h3 h4
      injection h1 with h1
      injection h3 with h3
      injection h3 with h3 _
      obtain ⟨bs, v, hp, hr, ha, -⟩ := C100_pay_accepted H hH blake224 blake256 h256 (samplePayment [sampleKey, List.replicate 96 2]) [pk1, pk2]
        (fun r => if r = (List.replicate 32 7, 0) then some (0x61 :: blake224 pk1, 10000000) else if r = (List.replicate 32 7, 1) then some (0x61 :: blake224 pk2, 5000000) else none)
        ⟨44, 155381, 16384, 1000000, 1, 0⟩ ds d kd
        (by intro k hk
            rcases List.mem_cons.1 hk with rfl | hk
            · exact sampleKey_ok
            · rw [List.mem_singleton.1 hk]; exact k2)
        (by decide : 2 < 2 ^ 63)
        (by intro pk hpk
            rcases List.mem_cons.1 hpk with rfl | hpk
            · exact ⟨sampleKey, by simp [samplePayment], p1⟩
            · rw [List.mem_singleton.1 hpk]; exact ⟨_, by simp [samplePayment], p2⟩)
        ⟨by intro i hi
            rcases List.mem_cons.1 hi with rfl | hi
            · decide
            · rw [List.mem_singleton.1 hi]; decide, by
          intro i hi
          rcases List.mem_cons.1 hi with rfl | hi
          · exact ⟨_, if_pos rfl, pk1, by simp, 0x61, [], by rw [List.append_nil], by decide⟩
          · rw [List.mem_singleton.1 hi]
            exact ⟨_, (if_neg (by decide)).trans (if_pos rfl), pk2, by simp, 0x61, [], by rw [List.append_nil], by decide⟩⟩
        (by decide) (by decide) (by decide : 2 < 2 ^ 63)
        (by intro o ho; rw [List.mem_singleton.1 ho]; exact ⟨⟨by decide +kernel, _, _, rfl, by decide +kernel⟩, by decide +kernel⟩)
        (by decide : 1 < 2 ^ 62) ⟨by decide +kernel, _, _, rfl, by decide +kernel⟩ (.inl rfl) (fun h => absurd rfl h) ⟨rfl, rfl⟩ h2 (by rw [h1]; decide) (by decide) (by decide) h4 (by decide)
        (by rw [h3]; decide)
      exact ⟨pk1, pk2, bs, p1, p2, hp, v, hr, ha⟩

/-- C100: a receiver as the README's program wants it; and transactions without witnesses. -/
example (C : Crypto) : (asc "TX_HASH".toList).length < 2 ^ 63 ∧ AddressFits sampleAddr ∧ (∃ b, marshalAddress sampleAddr = .ok b) ∧
    ∃ bs, Transaction.bytes C (ByHand.AddInputs ByHand.NewTx [⟨List.replicate 32 7, 0, 10000000⟩]) 0 = .ok bs :=
  ⟨by decide +kernel, (by decide +kernel : (Addr.bytes sampleAddr).length < 2 ^ 63), ⟨_, rfl⟩, ⟨_, rfl⟩⟩

end Cardano.Props
