import Verif.Tx.Spec
import Verif.Cbor.Complete
import Verif.Address.Parse
import Verif.Byron.Lemmas
/-!
# Transactions: encoding lemmas
-/
set_option autoImplicit false

namespace Cardano.Transaction
open Cbor TxSpec Addr

theorem all2_map {α β γ : Type} {R : β → γ → Prop} (f : α → β) (g : α → γ) (l : List α) (h : ∀ x ∈ l, R (f x) (g x)) :
    All2 R (l.map f) (l.map g) := by
  induction l with
  | nil => exact .nil
  | cons x l ih => exact .cons (h x (by simp)) (ih fun y hy => h y (by simp [hy]))

theorem input_enc (i : TxInput) (h : i.txHash.length < 2 ^ 63) : Enc (marshalInput i) (inputItem i) := by
  have hu := enc_uint (UInt64.ofNat i.index.toNat)
  rw [ofNat64 _ (by have := UInt16.toNat_lt i.index; omega)] at hu
  exact enc_array _ _ (.cons (enc_bytes _ (by omega)) (.cons hu .nil)) (by simp)

theorem byron_enc (b : ByronAddress) (h : b.hash.length < 2 ^ 62 ∧ b.attributes.payload.length < 2 ^ 62) :
    Enc (Byron.bytes b) (addressItem (.byron b)) := by
  have hl : (Byron.rawBytes b).length < 2 ^ 64 := by
    have e1 := Byron.encHead_length_le 0x80 (UInt64.ofNat [encBytes b.hash, Byron.attrBytes b.attributes, encUint b.tag].length)
    have e2 := Byron.encHead_length_le 0x40 (UInt64.ofNat b.hash.length)
    have e3 : (encUint b.tag).length ≤ 9 := Byron.encHead_length_le _ _
    have e4 := Byron.attrBytes_length b.attributes
    unfold Byron.rawBytes encArray
    simp only [List.flatten_cons, List.flatten_nil, List.append_nil, List.length_append, encBytes] at *
    omega
  have hc : (UInt64.ofNat (Crc32.checksum (Byron.rawBytes b)).toNat).toNat = (Crc32.checksum (Byron.rawBytes b)).toNat :=
    ofNat64 _ (by have := UInt32.toNat_lt (Crc32.checksum (Byron.rawBytes b)); omega)
  have := Byron.bytes_enc (Byron.rawBytes b) hl (UInt64.ofNat (Crc32.checksum (Byron.rawBytes b)).toNat)
  rw [hc] at this
  exact this

theorem address_enc (a : Address) (h : AddressFits a) (b : Bytes) (hb : marshalAddress a = .ok b) : Enc b (addressItem a) := by
  cases a with
  | byron y =>
    have : Byron.bytes y = b := by injection hb
    rw [← this]; exact byron_enc y h
  | base n p s => have : encBytes (Addr.bytes (.base n p s)) = b := by injection hb
                  rw [← this]; exact enc_bytes _ (Nat.lt_trans h (by decide))
  | enterprise n p => have : encBytes (Addr.bytes (.enterprise n p)) = b := by injection hb
                      rw [← this]; exact enc_bytes _ (Nat.lt_trans h (by decide))
  | pointer n p s => have : encBytes (Addr.bytes (.pointer n p s)) = b := by injection hb
                     rw [← this]; exact enc_bytes _ (Nat.lt_trans h (by decide))
  | reward n s => cases hb

theorem output_enc (o : TxOutput) (h : AddressFits o.address) (b : Bytes) (hb : marshalOutput o = .ok b) : Enc b (outputItem o) := by
  obtain ⟨a, ha, hb⟩ := bind_ok hb
  have : encArray [a, encUint o.amount] = b := by injection hb
  rw [← this]
  exact enc_array _ _ (.cons (address_enc _ h _ ha) (.cons (enc_uint _) .nil)) (by simp)

theorem collect_ok (l : List TxOutput) : ∀ bs, collect (l.map marshalOutput) = .ok bs →
    bs.length = l.length ∧ All2 (fun b o => marshalOutput o = .ok b) bs l := by
  induction l with
  | nil => intro bs h; have : [] = bs := by injection h
           subst this; exact ⟨rfl, .nil⟩
  | cons o l ih =>
    intro bs h
    obtain ⟨b, hb, h⟩ := bind_ok h
    obtain ⟨bs', hbs, h⟩ := bind_ok h
    have : b :: bs' = bs := by injection h
    subst this
    obtain ⟨h1, h2⟩ := ih _ hbs
    exact ⟨by simp [h1], .cons hb h2⟩

theorem all2_imp {α β γ : Type} {R : α → β → Prop} {S : α → γ → Prop} (g : β → γ) {a : List α} {b : List β} (h : All2 R a b)
    (hi : ∀ x y, y ∈ b → R x y → S x (g y)) : All2 S a (b.map g) := by
  induction h with
  | nil => exact .nil
  | cons hr _ ih => exact .cons (hi _ _ (by simp) hr) (ih fun x y hy hr => hi x y (by simp [hy]) hr)

theorem body_enc (b : TxBody) (hf : BodyFits b) (bs : Bytes) (h : marshalBody b = .ok bs) : Enc bs (bodyItem b) := by
  obtain ⟨outs, ho, h⟩ := bind_ok h
  obtain ⟨hl, ha⟩ := collect_ok _ _ ho
  injection h with h
  subst h
  have h0 : Enc (encUint 0) (.uint 0) := enc_uint 0
  have h1 : Enc (encUint 1) (.uint 1) := enc_uint 1
  have h2 : Enc (encUint 2) (.uint 2) := enc_uint 2
  have h3 : Enc (encUint 3) (.uint 3) := enc_uint 3
  have h7 : Enc (encUint 7) (.uint 7) := enc_uint 7
  have hi : Enc (encArray (b.inputs.map marshalInput)) (.array (b.inputs.map inputItem)) :=
    enc_array _ _ (all2_map _ _ _ fun i hi => input_enc i (hf.hashes i hi)) (by have := hf.inputs; simp; omega)
  have hout : Enc (encArray outs) (.array (b.outputs.map outputItem)) :=
    enc_array _ _ (all2_imp _ ha fun x y hy hr => output_enc y (hf.addrs y hy) x hr) (by have := hf.outputs; omega)
  have hfee := enc_uint b.fee
  have httl := enc_uint (UInt64.ofNat b.ttl.toNat)
  rw [ofNat64 _ (by have := UInt32.toNat_lt b.ttl; omega)] at httl
  have haux := enc_bytes b.auxHash (by have := hf.aux; omega)
  have hx : (b.auxHash.length = 0) = (b.auxHash = []) := by simp
  unfold bodyItem
  simp only [hx]
  by_cases c1 : b.ttl = 0 <;> by_cases c2 : b.auxHash = []
  · rw [if_pos c1, if_pos c2, if_pos c1, if_pos c2]
    exact enc_map _ [(_, _), (_, _), (_, _)] (.cons ⟨h0, hi⟩ (.cons ⟨h1, hout⟩ (.cons ⟨h2, hfee⟩ .nil))) (by simp)
  · rw [if_pos c1, if_neg c2, if_pos c1, if_neg c2]
    exact enc_map _ [(_, _), (_, _), (_, _), (_, _)] (.cons ⟨h0, hi⟩ (.cons ⟨h1, hout⟩ (.cons ⟨h2, hfee⟩ (.cons ⟨h7, haux⟩ .nil)))) (by simp)
  · rw [if_neg c1, if_pos c2, if_neg c1, if_pos c2]
    exact enc_map _ [(_, _), (_, _), (_, _), (_, _)] (.cons ⟨h0, hi⟩ (.cons ⟨h1, hout⟩ (.cons ⟨h2, hfee⟩ (.cons ⟨h3, httl⟩ .nil)))) (by simp)
  · rw [if_neg c1, if_neg c2, if_neg c1, if_neg c2]
    exact enc_map _ [(_, _), (_, _), (_, _), (_, _), (_, _)] (.cons ⟨h0, hi⟩ (.cons ⟨h1, hout⟩ (.cons ⟨h2, hfee⟩ (.cons ⟨h3, httl⟩ (.cons ⟨h7, haux⟩ .nil))))) (by simp)

theorem witness_enc (ws : List VKeyWitness) (hf : WitnessFits ws) : Enc (marshalWitness ws) (witnessItem ws) := by
  have h0 : Enc (encUint 0) (.uint 0) := enc_uint 0
  have hx : (ws.length = 0) = (ws = []) := by simp
  unfold marshalWitness witnessItem
  simp only [hx]
  by_cases c : ws = []
  · rw [if_pos c, if_pos c]; exact enc_map _ [] .nil (by simp)
  · rw [if_neg c, if_neg c]
    refine enc_map _ [(_, _)] (.cons ⟨h0, enc_array _ _ (all2_map _ _ _ fun w hw => ?_) (by have := hf.count; simp; omega)⟩ .nil) (by simp)
    have := hf.each w hw
    exact enc_array _ _ (.cons (enc_bytes _ (by omega)) (.cons (enc_bytes _ (by omega)) .nil)) (by simp)

theorem marshalTx_parts (t : Tx) (k : Nat) (bs : Bytes) (h : marshalTx t k = .ok bs) :
    ∃ b m, marshalBody t.body = .ok b ∧ marshalMetadata t.metadata k = .ok m ∧
      bs = 0x84 :: (b ++ marshalWitness t.witness ++ encBool t.valid ++ m) := by
  obtain ⟨b, hb, h⟩ := bind_ok h
  obtain ⟨m, hm, h⟩ := bind_ok h
  injection h with h
  refine ⟨b, m, hb, hm, ?_⟩
  rw [← h]
  have : encHead 0x80 (UInt64.ofNat 4) = [0x84] := by decide
  simp only [encArray, List.length_cons, List.length_nil, this, List.flatten_cons, List.flatten_nil]
  simp

theorem tx_enc (t : Tx) (k : Nat) (bs : Bytes) (hb : BodyFits t.body) (hw : WitnessFits t.witness) (h : marshalTx t k = .ok bs)
    (md : Bytes) (hmd : marshalMetadata t.metadata k = .ok md) (x : Item) (hx : parse md = some x) :
    Enc bs (txItem t.body t.witness t.valid x) := by
  obtain ⟨b, hb', h⟩ := bind_ok h
  obtain ⟨m, hm, h⟩ := bind_ok h
  injection h with h
  subst h
  rw [hm] at hmd
  injection hmd with hmd
  subst hmd
  exact enc_array _ _ (.cons (body_enc _ hb _ hb') (.cons (witness_enc _ hw) (.cons (enc_bool _)
    (.cons (enc_of_parse _ _ hx) .nil)))) (by simp)

/-- The transaction whose auxiliary data hash has been computed. -/
theorem bytes_ok (C : Crypto) (t : Tx) (k : Nat) (bs : Bytes) (h : bytes C t k = .ok bs) :
    calcAux C t k = .ok (afterAux C t k).body ∧ marshalTx (afterAux C t k) (k + 1) = .ok bs ∧
    (afterAux C t k).witness = t.witness ∧ (afterAux C t k).valid = t.valid ∧ (afterAux C t k).metadata = t.metadata := by
  obtain ⟨b, hb, h⟩ := bind_ok h
  have : afterAux C t k = { t with body := b } := by unfold afterAux; rw [hb]
  rw [this]
  exact ⟨hb, h, rfl, rfl, rfl⟩

end Cardano.Transaction
