import Verif.Cbor.Canon
import Verif.Props.Metadata
/-!
# C139: transactions are in the deterministic form of CBOR
-/
set_option autoImplicit false
namespace Cardano.Props
open Cbor TxSpec Transaction Addr

theorem canonAll_length (xs : List Item) : (canonAll xs).length = xs.length := by
  induction xs with
  | nil => rfl
  | cons x xs ih => show (canon x :: canonAll xs).length = _; rw [List.length_cons, ih, List.length_cons]

theorem canonAll_map {α : Type} (f : α → Item) (l : List α) : canonAll (l.map f) = l.map fun x => canon (f x) := by
  induction l with
  | nil => rfl
  | cons x l ih => show canon (f x) :: canonAll (l.map f) = _; rw [ih, List.map_cons]

theorem canon_uint (n : UInt64) : canon (.uint n.toNat) = encUint n := (encHead_short 0 (by omega) n).symm

theorem canon_bytes (b : Bytes) (h : b.length < 2 ^ 64) : canon (.bytes b) = encBytes b := by
  show shortHead 2 b.length ++ b = _
  have := encHead_short 2 (by omega) (UInt64.ofNat b.length)
  rw [ofNat64 _ h] at this
  rw [← this]; rfl

theorem canon_array (xs : List Item) (bs : List Bytes) (h : canonAll xs = bs) (hl : bs.length < 2 ^ 64) : canon (.array xs) = encArray bs := by
  subst h
  show shortHead 4 xs.length ++ (canonAll xs).flatten = _
  have := encHead_short 4 (by omega) (UInt64.ofNat (canonAll xs).length)
  rw [ofNat64 _ hl, canonAll_length] at this
  unfold encArray
  rw [canonAll_length, ← this]; rfl

theorem sortEntries_sorted (l : List (Bytes × Bytes)) (hs : l.Pairwise fun p q => lexLE p.1 q.1 = true) : sortEntries l = l := by
  induction l with
  | nil => rfl
  | cons p l ih =>
    obtain ⟨h1, h2⟩ := List.pairwise_cons.1 hs
    show insertEntry p (sortEntries l) = _
    rw [ih h2]
    cases l with
    | nil => rfl
    | cons q l => exact if_pos (h1 q (by simp))

/-- A map whose keys are in order. -/
theorem canon_map (kvs : List Item) (bs : List (Bytes × Bytes)) (h : pairUp (canonAll kvs) = bs) (hn : kvs.length / 2 = bs.length) (hl : bs.length < 2 ^ 64)
    (hs : bs.Pairwise fun p q => lexLE p.1 q.1 = true) : canon (.map kvs) = encMap bs := by
  subst h
  show shortHead 5 (kvs.length / 2) ++ _ = _
  have := encHead_short 5 (by omega) (UInt64.ofNat (pairUp (canonAll kvs)).length)
  rw [ofNat64 _ hl] at this
  rw [hn, ← this, sortEntries_sorted _ hs]; rfl

theorem canon_tag (n : UInt64) (x : Item) (b : Bytes) (h : canon x = b) : canon (.tag n.toNat x) = encTag n b := by
  subst h
  show shortHead 6 n.toNat ++ canon x = _
  rw [← encHead_short 6 (by omega) n]; rfl

theorem input_canon (i : TxInput) (h : i.txHash.length < 2 ^ 63) : canon (inputItem i) = marshalInput i := by
  have hu := canon_uint (UInt64.ofNat i.index.toNat)
  rw [ofNat64 _ (by have := UInt16.toNat_lt i.index; omega)] at hu
  refine canon_array _ _ ?_ (by simp)
  show [canon (.bytes i.txHash), canon (.uint i.index.toNat)] = _
  rw [canon_bytes _ (by omega), hu]

theorem address_canon (a : Address) (h : AddressFits a) (b : Bytes) (hb : marshalAddress a = .ok b) : canon (addressItem a) = b := by
  cases a with
  | byron y =>
    injection hb with hb
    rw [← hb]
    have hl : (Byron.rawBytes y).length < 2 ^ 64 := by
      have e1 := Byron.encHead_length_le 0x80 (UInt64.ofNat [encBytes y.hash, Byron.attrBytes y.attributes, encUint y.tag].length)
      have e2 := Byron.encHead_length_le 0x40 (UInt64.ofNat y.hash.length)
      have e3 : (encUint y.tag).length ≤ 9 := Byron.encHead_length_le _ _
      have e4 := Byron.attrBytes_length y.attributes
      obtain ⟨h1, h2⟩ : y.hash.length < 2 ^ 62 ∧ y.attributes.payload.length < 2 ^ 62 := h
      unfold Byron.rawBytes encArray
      simp only [List.flatten_cons, List.flatten_nil, List.append_nil, List.length_append, encBytes] at *
      omega
    have hc := canon_uint (UInt64.ofNat (Crc32.checksum (Byron.rawBytes y)).toNat)
    rw [ofNat64 _ (by have := UInt32.toNat_lt (Crc32.checksum (Byron.rawBytes y)); omega)] at hc
    refine canon_array _ [encTag 24 (encBytes (Byron.rawBytes y)), _] ?_ (by simp)
    show [canon (.tag 24 (.bytes (Byron.rawBytes y))), canon (.uint (Crc32.checksum (Byron.rawBytes y)).toNat)] = _
    rw [hc]
    have := canon_tag 24 (.bytes (Byron.rawBytes y)) _ (canon_bytes _ hl)
    have e : (24 : UInt64).toNat = 24 := rfl
    rw [e] at this
    rw [this]
  | base n p s => injection hb with hb
                  rw [← hb]; exact canon_bytes _ (Nat.lt_trans h (by decide))
  | enterprise n p => injection hb with hb
                      rw [← hb]; exact canon_bytes _ (Nat.lt_trans h (by decide))
  | pointer n p s => injection hb with hb
                     rw [← hb]; exact canon_bytes _ (Nat.lt_trans h (by decide))
  | reward n s => cases hb

theorem output_canon (o : TxOutput) (h : AddressFits o.address) (b : Bytes) (hb : marshalOutput o = .ok b) : canon (outputItem o) = b := by
  obtain ⟨a, ha, hb⟩ := bind_ok hb
  injection hb with hb
  rw [← hb]
  refine canon_array _ _ ?_ (by simp)
  show [canon (addressItem o.address), canon (.uint o.amount.toNat)] = _
  rw [address_canon _ h _ ha, canon_uint]

theorem body_canon (b : TxBody) (hf : BodyFits b) (bs : Bytes) (h : marshalBody b = .ok bs) : canon (bodyItem b) = bs := by
  obtain ⟨outs, ho, h⟩ := bind_ok h
  obtain ⟨hl, ha⟩ := collect_ok _ _ ho
  injection h with h
  subst h
  have h0 : canon (.uint 0) = encUint 0 := canon_uint 0
  have h1 : canon (.uint 1) = encUint 1 := canon_uint 1
  have h2 : canon (.uint 2) = encUint 2 := canon_uint 2
  have h3 : canon (.uint 3) = encUint 3 := canon_uint 3
  have h7 : canon (.uint 7) = encUint 7 := canon_uint 7
  have hi : canon (.array (b.inputs.map inputItem)) = encArray (b.inputs.map marshalInput) := by
    refine canon_array _ _ ?_ (by have := hf.inputs; simp; omega)
    rw [canonAll_map]
    exact List.map_congr_left fun i hi => input_canon i (hf.hashes i hi)
  have hout : canon (.array (b.outputs.map outputItem)) = encArray outs := by
    refine canon_array _ _ ?_ (by have := hf.outputs; omega)
    have hf := hf.addrs
    clear hi ho hl h
    generalize b.outputs = l at ha hf
    induction ha with
    | nil => rfl
    | cons hr _ ih =>
      show canon (outputItem _) :: canonAll _ = _
      rw [output_canon _ (hf _ (by simp)) _ hr, ih fun o ho => hf o (by simp [ho])]
  have hfee := canon_uint b.fee
  have httl := canon_uint (UInt64.ofNat b.ttl.toNat)
  rw [ofNat64 _ (by have := UInt32.toNat_lt b.ttl; omega)] at httl
  have haux := canon_bytes b.auxHash (by have := hf.aux; omega)
  have hx : (b.auxHash.length = 0) = (b.auxHash = []) := by simp
  unfold bodyItem
  simp only [hx]
  have k : lexLE (encUint 0) (encUint 1) = true ∧ lexLE (encUint 0) (encUint 2) = true ∧ lexLE (encUint 0) (encUint 3) = true ∧ lexLE (encUint 0) (encUint 7) = true ∧
    lexLE (encUint 1) (encUint 2) = true ∧ lexLE (encUint 1) (encUint 3) = true ∧ lexLE (encUint 1) (encUint 7) = true ∧
    lexLE (encUint 2) (encUint 3) = true ∧ lexLE (encUint 2) (encUint 7) = true ∧ lexLE (encUint 3) (encUint 7) = true := by decide
  by_cases c1 : b.ttl = 0 <;> by_cases c2 : b.auxHash = []
  · rw [if_pos c1, if_pos c2, if_pos c1, if_pos c2]
    refine canon_map _ _ ?_ (by simp) (by simp) (by simp [k])
    show [(canon _, canon _), (canon _, canon _), (canon _, canon _)] = _
    rw [h0, h1, h2, hi, hout, hfee]; rfl
  · rw [if_pos c1, if_neg c2, if_pos c1, if_neg c2]
    refine canon_map _ _ ?_ (by simp) (by simp) (by simp [k])
    show [(canon _, canon _), (canon _, canon _), (canon _, canon _), (canon _, canon _)] = _
    rw [h0, h1, h2, h7, hi, hout, hfee, haux]; rfl
  · rw [if_neg c1, if_pos c2, if_neg c1, if_pos c2]
    refine canon_map _ _ ?_ (by simp) (by simp) (by simp [k])
    show [(canon _, canon _), (canon _, canon _), (canon _, canon _), (canon _, canon _)] = _
    rw [h0, h1, h2, h3, hi, hout, hfee, httl]; rfl
  · rw [if_neg c1, if_neg c2, if_neg c1, if_neg c2]
    refine canon_map _ _ ?_ (by simp) (by simp) (by simp [k])
    show [(canon _, canon _), (canon _, canon _), (canon _, canon _), (canon _, canon _), (canon _, canon _)] = _
    rw [h0, h1, h2, h3, h7, hi, hout, hfee, httl, haux]; rfl

theorem witness_canon (ws : List VKeyWitness) (hf : WitnessFits ws) : canon (witnessItem ws) = marshalWitness ws := by
  have h0 : canon (.uint 0) = encUint 0 := canon_uint 0
  have hx : (ws.length = 0) = (ws = []) := by simp
  unfold marshalWitness witnessItem
  simp only [hx]
  by_cases c : ws = []
  · rw [if_pos c, if_pos c]
    exact canon_map _ _ rfl rfl (by simp) (by simp)
  · rw [if_neg c, if_neg c]
    refine canon_map _ _ ?_ (by simp) (by simp) (by simp)
    show [(canon _, canon _)] = _
    rw [h0, canon_array _ (ws.map marshalVKey) ?_ (by have := hf.count; simp; omega)]
    rw [canonAll_map]
    refine List.map_congr_left fun w hw => ?_
    have := hf.each w hw
    refine canon_array _ _ ?_ (by simp)
    show [canon (.bytes w.vkey), canon (.bytes w.signature)] = _
    rw [canon_bytes _ (by omega), canon_bytes _ (by omega)]

theorem tx_canon (t : Tx) (k : Nat) (bs : Bytes) (hb : BodyFits t.body) (hw : WitnessFits t.witness) (h : marshalTx t k = .ok bs)
    (md : Bytes) (hmd : marshalMetadata t.metadata k = .ok md) (x : Item) (hx : canon x = md) : canon (txItem t.body t.witness t.valid x) = bs := by
  obtain ⟨b, hb', h⟩ := bind_ok h
  obtain ⟨m, hm, h⟩ := bind_ok h
  injection h with h
  subst h
  rw [hm] at hmd
  injection hmd with hmd
  subst hmd
  refine canon_array _ _ ?_ (by simp)
  show [canon (bodyItem t.body), canon (witnessItem t.witness), canon (.simple _), canon x] = _
  have hv : canon (.simple (if t.valid then 21 else 20)) = encBool t.valid := by cases t.valid <;> rfl
  rw [body_canon _ hb _ hb', witness_canon _ hw, hv, hx]

/-- **C139.** The bytes of a transaction are the deterministic encoding of what they say, if that of the metadata is. So whoever reads them in any form and writes them again by the rules
of RFC 8949, 4.2.1, obtains the same bytes. -/
theorem C139_deterministic (C : Crypto) (hH : ∀ m, (C.blake256 m).length = 32) (t : Tx) (k : Nat) (bs : Bytes)
    (hb : BodyFits t.body) (hw : WitnessFits t.witness) (h : Transaction.bytes C t k = .ok bs)
    (hmd : ∀ md, t.metadata = some md → ∀ b, md.enc (k + 1) = .ok b → ∃ x, parse b = some x ∧ canon x = b) :
    (∃ x, parse bs = some x) ∧ ∀ bs' x, parse bs' = some x → parse bs' = parse bs → canon x = bs := by
  obtain ⟨body, hc, h⟩ := bind_ok h
  have hbody : BodyFits body := by
    unfold calcAux at hc
    cases hm : t.metadata with
    | none => rw [hm] at hc; injection hc with hc; rw [← hc]; exact hb
    | some md =>
      rw [hm] at hc
      cases e : md.enc k with
      | ok b1 =>
        simp only [e] at hc
        injection hc with hc
        rw [← hc]
        exact ⟨hb.inputs, hb.outputs, hb.hashes, hb.addrs, by simp only [hH]; decide⟩
      | err m => simp only [e] at hc; cases hc
      | panic => simp only [e] at hc; cases hc
  obtain ⟨_, m, _, hm2, _⟩ := marshalTx_parts _ _ _ h
  have hx : ∃ x, parse m = some x ∧ canon x = m := by
    cases hm : t.metadata with
    | none =>
      have hm2 : marshalMetadata t.metadata (k + 1) = .ok m := hm2
      rw [hm] at hm2
      have : encNil = m := by injection hm2
      rw [← this]
      exact ⟨.simple 22, rfl, rfl⟩
    | some md =>
      have hm2 : marshalMetadata t.metadata (k + 1) = .ok m := hm2
      rw [hm] at hm2
      exact hmd md hm m hm2
  obtain ⟨x, hx, hcx⟩ := hx
  have h1 := (tx_enc { t with body := body } (k + 1) bs hbody hw h m hm2 x hx).parse
  have h2 := tx_canon { t with body := body } (k + 1) bs hbody hw h m hm2 x hcx
  refine ⟨⟨_, h1⟩, fun bs' y hy e => ?_⟩
  rw [hy, h1] at e
  injection e with e
  rw [e]; exact h2

/-- **C139, the id.** `Hash` is the hash of the deterministic encoding of the body: a device that is given the inputs, outputs, fee, time to live and auxiliary data hash computes the same id. -/
theorem C139_id (C : Crypto) (hH : ∀ m, (C.blake256 m).length = 32) (t : Tx) (k : Nat) (id : Bytes) (hb : BodyFits t.body) (h : Transaction.hash C t k = .ok id) :
    ∃ aux, id = C.blake256 (canon (bodyItem { t.body with auxHash := aux })) ∧ (t.metadata = none → aux = t.body.auxHash) ∧
      ∀ md, t.metadata = some md → ∃ b, md.enc k = .ok b ∧ aux = C.blake256 b := by
  obtain ⟨body, hc, h⟩ := bind_ok h
  obtain ⟨bs, hbs, h⟩ := bind_ok h
  injection h with hid
  unfold calcAux at hc
  cases hm : t.metadata with
  | none =>
    rw [hm] at hc
    injection hc with hc
    subst hc
    exact ⟨t.body.auxHash, by rw [← hid, body_canon _ hb _ hbs], fun _ => rfl, nofun⟩
  | some md =>
    rw [hm] at hc
    cases e : md.enc k with
    | ok b1 =>
      simp only [e] at hc
      injection hc with hc
      subst hc
      refine ⟨C.blake256 b1, ?_, nofun, fun md' e' => ?_⟩
      · have hb' : BodyFits { t.body with auxHash := C.blake256 b1 } := ⟨hb.inputs, hb.outputs, hb.hashes, hb.addrs, by simp only [hH]; decide⟩
        rw [← hid, body_canon _ hb' _ hbs]
      · injection e' with e'
        subst e'
        exact ⟨b1, e, rfl⟩
    | err m => simp only [e] at hc; cases hc
    | panic => simp only [e] at hc; cases hc

/-- Metadata that the library always writes in the deterministic form: no map of two or more entries, the fields of structs in the order of their encoded keys, no floats, no types with
their own encoding. -/
def Orderly : GoVal → Prop
  | .list n xs => ∀ i : Fin n, Orderly (xs i)
  | .map n ks vs => n ≤ 1 ∧ (∀ i, Orderly (ks i)) ∧ ∀ i, Orderly (vs i)
  | .record n ks vs => (∀ i : Fin n, Orderly (ks i)) ∧ (∀ i, Orderly (vs i)) ∧
      ∀ kb : Fin n → Bytes, (∀ i, Marshals (ks i) (kb i)) → (List.ofFn kb).Pairwise fun p q => lexLE p q = true
  | .tag _ v => Orderly v
  | .raw _ => False
  | .float64 _ => False
  | .float32 _ => False
  | _ => True

theorem pairUp_flat (l : List (Item × Item)) : pairUp (canonAll (flatPairs l)) = l.map fun p => (canon p.1, canon p.2) := by
  induction l with
  | nil => rfl
  | cons p l ih =>
    obtain ⟨a, b⟩ := p
    show (canon a, canon b) :: pairUp (canonAll (flatPairs l)) = _
    rw [ih]; rfl

theorem marshals_canon (v : GoVal) (b : Bytes) (hv : v.Fits) (ho : Orderly v) (h : Marshals v b) : ∃ x, Enc b x ∧ canon x = b := by
  induction h with
  | nil => exact ⟨_, enc_nil, rfl⟩
  | bool b => exact ⟨_, enc_bool b, by cases b <;> rfl⟩
  | uint n => exact ⟨_, enc_uint n, canon_uint n⟩
  | int n =>
    unfold encInt
    split
    · exact ⟨_, enc_uint _, canon_uint _⟩
    · exact ⟨_, enc_nint _, (encHead_short 1 (by omega) _).symm⟩
  | bytes b => exact ⟨_, enc_bytes b (Nat.lt_trans hv (by decide)), canon_bytes b (Nat.lt_trans hv (by decide))⟩
  | text s =>
    have hl : s.length < 2 ^ 64 := Nat.lt_trans hv (by decide)
    refine ⟨_, enc_text s hl, ?_⟩
    show shortHead 3 s.length ++ s = _
    have := encHead_short 3 (by omega) (UInt64.ofNat s.length)
    rw [ofNat64 _ hl] at this
    rw [← this]; rfl
  | list n xs bs h ih =>
    have ih := fun i => ih i (hv.2 i) (ho i)
    choose is h1 h2 using ih
    refine ⟨.array (List.ofFn is), ?_, ?_⟩
    · refine enc_array _ _ ?_ (by have := hv.1; simp; omega)
      rw [List.ofFn_eq_map, List.ofFn_eq_map]
      exact Cbor.all2_map _ _ h1 _
    · refine canon_array _ _ ?_ (by have := hv.1; simp; omega)
      rw [List.ofFn_eq_map, canonAll_map, List.ofFn_eq_map]
      exact List.map_congr_left fun i _ => h2 i
  | map n ks vs kb vb order hk hvs hp ihk ihv =>
    have ihk := fun i => ihk i (hv.2.1 i) (ho.2.1 i)
    have ihv := fun i => ihv i (hv.2.2 i) (ho.2.2 i)
    choose ki k1 k2 using ihk
    choose vi v1 v2 using ihv
    have hl : order.length = n := by rw [hp.length_eq, List.length_finRange]
    have hn := hv.1
    refine ⟨.map (flatPairs (order.map fun i => (ki i, vi i))), ?_, ?_⟩
    · exact enc_map _ _ (Cbor.all2_map _ _ (fun i => ⟨k1 i, v1 i⟩) _) (by simp; omega)
    · refine canon_map _ _ ?_ (by rw [flatPairs_length]; simp) (by simp; omega) ?_
      · rw [pairUp_flat, List.map_map]
        exact List.map_congr_left fun i _ => by show (canon (ki i), canon (vi i)) = _; rw [k2, v2]
      · have hn1 := ho.1
        have : order.length ≤ 1 := by omega
        match order, this with
        | [], _ => exact .nil
        | [i], _ => exact List.pairwise_singleton _ _
  | float64 _ => cases ho
  | float32 _ => cases ho
  | big n =>
    unfold encBig
    repeat' split
    · exact ⟨_, enc_uint _, canon_uint _⟩
    · exact ⟨_, enc_tag 2 _ _ (enc_bytes _ (Nat.lt_trans hv.1 (by decide))), canon_tag 2 _ _ (canon_bytes _ (Nat.lt_trans hv.1 (by decide)))⟩
    · exact ⟨_, enc_nint _, (encHead_short 1 (by omega) _).symm⟩
    · exact ⟨_, enc_tag 3 _ _ (enc_bytes _ (Nat.lt_trans hv.2 (by decide))), canon_tag 3 _ _ (canon_bytes _ (Nat.lt_trans hv.2 (by decide)))⟩
  | record n ks vs kb vb hk hvs ihk ihv =>
    have ihk := fun i => ihk i (hv.2.1 i) (ho.1 i)
    have ihv := fun i => ihv i (hv.2.2 i) (ho.2.1 i)
    choose ki k1 k2 using ihk
    choose vi v1 v2 using ihv
    have hn := hv.1
    refine ⟨.map (flatPairs (List.ofFn fun i => (ki i, vi i))), ?_, ?_⟩
    · refine enc_map _ _ ?_ (by simp; omega)
      rw [List.ofFn_eq_map, List.ofFn_eq_map]
      exact Cbor.all2_map _ _ (fun i => ⟨k1 i, v1 i⟩) _
    · refine canon_map _ _ ?_ (by rw [flatPairs_length]; simp) (by simp; omega) ?_
      · rw [pairUp_flat, List.ofFn_eq_map, List.ofFn_eq_map, List.map_map]
        exact List.map_congr_left fun i _ => by show (canon (ki i), canon (vi i)) = _; rw [k2, v2]
      · have := ho.2.2 kb hk
        rw [List.ofFn_eq_map] at this ⊢
        exact List.pairwise_map.2 (List.pairwise_map.1 this)
  | tag t v b h ih =>
    obtain ⟨x, h1, h2⟩ := ih hv ho
    exact ⟨_, enc_tag t b x h1, canon_tag t x b h2⟩
  | raw b => cases ho

/-- **C139, metadata.** For such metadata the whole transaction is in the deterministic form. -/
theorem C139_metadata (C : Crypto) (hH : ∀ m, (C.blake256 m).length = 32) (t : Tx) (k : Nat) (bs : Bytes) (v : GoVal) (md : Metadata)
    (hm : t.metadata = some md) (hv : IsMeta v md) (hf : v.Fits) (ho : Orderly v) (hb : BodyFits t.body) (hw : WitnessFits t.witness)
    (h : Transaction.bytes C t k = .ok bs) : (∃ x, parse bs = some x) ∧ ∀ bs' x, parse bs' = some x → parse bs' = parse bs → canon x = bs := by
  refine C139_deterministic C hH t k bs hb hw h fun md' e b hb' => ?_
  rw [hm] at e
  injection e with e
  subst e
  obtain ⟨b', e', h'⟩ := hv (k + 1)
  rw [hb'] at e'
  injection e' with e'
  rw [← e'] at h'
  obtain ⟨x, h1, h2⟩ := marshals_canon v b hf ho h'
  exact ⟨x, h1.parse, h2⟩

/-- C139: a transaction with two inputs, one output, a time to live, a witness and metadata `{1: "a"}`. -/
example : ∃ (C : Crypto) (t : Tx) (bs id : Bytes), (∀ m, (C.blake256 m).length = 32) ∧ BodyFits t.body ∧ WitnessFits t.witness ∧ Transaction.bytes C t 0 = .ok bs ∧
    Transaction.hash C t 0 = .ok id ∧ t.metadata ≠ none ∧ ∀ md, t.metadata = some md → ∀ b, md.enc 1 = .ok b → ∃ x, parse b = some x ∧ canon x = b := by
  refine ⟨⟨fun _ => List.replicate 32 1, fun _ => .panic, fun _ _ => .panic⟩,
    ⟨⟨[⟨List.replicate 32 2, 0, 5⟩, ⟨List.replicate 32 3, 300, 6⟩], [⟨.enterprise MainNet ⟨0, List.replicate 28 4⟩, 1000000⟩], 170000, 70000, []⟩,
      [⟨List.replicate 32 5, List.replicate 64 6⟩], true, some ⟨fun _ => .ok [0xa1, 0x01, 0x61, 0x61]⟩⟩, _, _, fun _ => rfl, ?_, ?_, rfl, rfl, nofun, ?_⟩
  · refine ⟨by decide, by decide, by decide, ?_, by decide⟩
    intro o ho
    rw [List.mem_singleton.1 ho]
    exact (by decide : (29 : Nat) < 2 ^ 63)
  · exact ⟨by decide, by decide⟩
  · intro md e b hb
    injection e with e
    subst e
    injection hb with hb
    subst hb
    exact ⟨.map [.uint 1, .text [0x61]], rfl, rfl⟩

/-- C139: metadata as in the transactions of many wallets, `{674: {"msg": ["a", "b"]}}`. -/
example : ∃ v : GoVal, v.Fits ∧ Orderly v ∧ ∃ b, Marshals v b :=
  let s (l : Bytes) : Fin 1 → GoVal := fun _ => .text l
  ⟨.map 1 (fun _ => .uint 674) (fun _ => .map 1 (s [0x6d, 0x73, 0x67]) fun _ => .list 2 fun i => .text [0x61 + UInt8.ofNat i]),
    ⟨by decide, fun _ => trivial, fun _ => ⟨by decide, fun _ => by show 3 < 2 ^ 63; decide, fun _ => ⟨by decide, fun _ => by show 1 < 2 ^ 63; decide⟩⟩⟩,
    ⟨by decide, fun _ => trivial, fun _ => ⟨by decide, fun _ => trivial, fun _ _ => trivial⟩⟩, encodes_exists _⟩

/-- Not deterministic: a head that is too long; keys out of order. -/
example : (∃ x, parse [0x18, 0x05] = some x ∧ canon x = [0x05]) ∧ ∃ x, parse [0xa2, 0x02, 0x00, 0x01, 0x00] = some x ∧ canon x = [0xa2, 0x01, 0x00, 0x02, 0x00] :=
  ⟨⟨.uint 5, rfl, rfl⟩, .map [.uint 2, .uint 0, .uint 1, .uint 0], rfl, rfl⟩

end Cardano.Props
