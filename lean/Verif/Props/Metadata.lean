import Verif.Cbor.Value
import Verif.Props.Ledger
/-!
# Properties C85 to C88: metadata given as a Go value
-/
set_option autoImplicit false

namespace Cardano.Props
open Cbor TxSpec Transaction TxBuilder Addr Bip32
open Ledger (read seen refOf outOf witOf Env UTxO OutputAddress readAux)

/-- The metadata is the Go value `v`: each call of `cbor.Marshal` on it returns one of its encodings. -/
def IsMeta (v : GoVal) (md : Metadata) : Prop := ∀ k, ∃ b, md.enc k = .ok b ∧ Marshals v b

/-- There is such metadata. -/
theorem isMeta_exists (v : GoVal) : ∃ md, IsMeta v md := by
  obtain ⟨b, h⟩ := encodes_exists v
  exact ⟨⟨fun _ => .ok b⟩, fun _ => ⟨b, rfl, h⟩⟩

/-- The map from 1 to the text "a" and from 2 to -5: metadata with two labels. -/
def twoLabels : GoVal := .map 2 (fun i => .uint (if i = 0 then 1 else 2)) (fun i => if i = 0 then .text [0x61] else .int (-5))

/-- The two encodings of `twoLabels`. -/
theorem twoLabels_encodings : Marshals twoLabels [0xa2, 1, 0x61, 0x61, 2, 0x24] ∧ Marshals twoLabels [0xa2, 2, 0x24, 1, 0x61, 0x61] := by
  have hk : ∀ i : Fin 2, Marshals (.uint (if i = 0 then 1 else 2)) (if i = 0 then [1] else [2]) := by
    intro i
    match i with
    | 0 => exact Marshals.uint 1
    | 1 => exact Marshals.uint 2
  have hv : ∀ i : Fin 2, Marshals (if i = 0 then .text [0x61] else .int (-5)) (if i = 0 then [0x61, 0x61] else [0x24]) := by
    intro i
    match i with
    | 0 => exact Marshals.text [0x61]
    | 1 => exact Marshals.int (-5)
  exact ⟨Marshals.map 2 _ _ _ _ [0, 1] hk hv (by decide), Marshals.map 2 _ _ _ _ [1, 0] hk hv (by decide)⟩

theorem twoLabels_ok : twoLabels.Fits ∧ twoLabels.Proper ∧ ¬ twoLabels.OrderFree := by
  refine ⟨⟨by decide, fun _ => trivial, fun i => ?_⟩, ⟨fun _ => trivial, fun i j h => ?_, fun i => ?_⟩, fun h => absurd h.1 (by decide)⟩
  · match i with
    | 0 => exact (by decide : 1 < 2 ^ 63)
    | 1 => trivial
  · rintro ⟨x, h1, h2⟩
    cases x with
    | uint m =>
      match i, j with
      | 0, 0 => exact h rfl
      | 1, 1 => exact h rfl
      | 0, 1 =>
        have h1 : (1 : Int) = m := h1
        have h2 : (2 : Int) = m := h2
        omega
      | 1, 0 =>
        have h1 : (2 : Int) = m := h1
        have h2 : (1 : Int) = m := h2
        omega
    | nint m =>
      match i with
      | 0 => have h1 : (1 : Int) = -1 - (m : Int) := h1
             omega
      | 1 => have h1 : (2 : Int) = -1 - (m : Int) := h1
             omega
    | _ => exact h1
  · match i with
    | 0 => trivial
    | 1 => trivial

/-! ### C85 -/

/-- **C85.** Whatever Go value the metadata is, whenever `Bytes` succeeds an RFC 8949 reader accepts the whole output as one item, the transaction, whose
fourth element says what the metadata is: numbers, texts, byte strings, lists in their order, and maps with their entries in some order. The
hash in the body is the one of an encoding of the metadata. -/
theorem C85_metadata_wellformed (C : Crypto) (hH : ∀ m, (C.blake256 m).length = 32) (t : Tx) (k : Nat) (bs : Bytes) (v : GoVal) (md : Metadata)
    (hm : t.metadata = some md) (hv : IsMeta v md) (hf : v.Fits) (hb : BodyFits t.body) (hw : WitnessFits t.witness)
    (h : Transaction.bytes C t k = .ok bs) :
    ∃ b x, parse bs = some (txItem { t.body with auxHash := C.blake256 b } t.witness t.valid x) ∧ Represents v x ∧ Marshals v b := by
  obtain ⟨b2, e2, he2⟩ := hv (k + 1)
  obtain ⟨x, hx, hr⟩ := enc_of_encodes v b2 hf he2
  obtain ⟨aux, y, h1, -, h2⟩ := C17_bytes_wellformed C hH t k bs hb hw h (fun md' e b' hb' => by
    rw [hm] at e; injection e with e; subst e
    rw [e2] at hb'; injection hb' with hb'; subst hb'
    exact ⟨x, hx.parse⟩)
  obtain ⟨b1, b2', g1, g2, g3, g4⟩ := h2 md hm
  rw [e2] at g2; injection g2 with g2; subst g2
  rw [hx.parse] at g4; injection g4 with g4; subst g4
  obtain ⟨b1', e1, he1⟩ := hv k
  rw [e1] at g1; injection g1 with g1; subst g1
  exact ⟨b1', x, by rw [h1, g3], hr, he1⟩

/-- `twoLabels` with the order changing from call to call, beginning with the given parity. -/
def alternating (first : Nat) : Metadata :=
  ⟨fun k => .ok (if (k + first) % 2 = 0 then [0xa2, 1, 0x61, 0x61, 2, 0x24] else [0xa2, 2, 0x24, 1, 0x61, 0x61])⟩

theorem alternating_ok (first : Nat) : IsMeta twoLabels (alternating first) := by
  intro k
  refine ⟨_, rfl, ?_⟩
  split
  · exact twoLabels_encodings.1
  · exact twoLabels_encodings.2

/-- C85: a transaction with this metadata. -/
example : ∃ (t : Tx) (bs : Bytes), t.metadata = some (alternating 0) ∧ IsMeta twoLabels (alternating 0) ∧ twoLabels.Fits ∧ BodyFits t.body ∧
    WitnessFits t.witness ∧ Transaction.bytes (goldenCrypto []) t 0 = .ok bs := by
  exact ⟨⟨⟨[], [], 0, 0, []⟩, [], true, some (alternating 0)⟩, _, rfl, alternating_ok 0, twoLabels_ok.1, ⟨by simp, by simp, by simp, by simp, by simp⟩, ⟨by simp, by simp⟩, rfl⟩

/-! ### C86 -/

/-- Metadata given as a Go value always takes the same number of bytes, as the fee theorems ask. -/
theorem isMeta_length (v : GoVal) (md : Metadata) (hv : IsMeta v md) :
    ∃ n, (∀ b, Marshals v b → b.length = n) ∧ ∀ k, ∃ m, marshalMetadata (some md) k = .ok m ∧ m.length = n := by
  obtain ⟨b, hb⟩ := encodes_exists v
  refine ⟨b.length, fun b' hb' => (encodes_length v b hb b' hb').symm, fun k => ?_⟩
  obtain ⟨b', e, hb'⟩ := hv k
  exact ⟨b', e, (encodes_length v b hb b' hb').symm⟩

/-- Amounts and addresses of a built transaction, whatever the metadata. -/
theorem built_amounts (C : Crypto) (b : Builder) (addr : Address) (keys : List Bytes) (t : Tx) (bs : Bytes) (hb : Built C b addr keys t bs) :
    t.body.fee = (MinFee C b).1 ∧
    t.body.outputs = b.body.outputs ++ [⟨addr, totalIn b.body.inputs - totalOut b.body.outputs - (MinFee C b).1⟩] ∧
    (∃ ab, marshalAddress addr = .ok ab) ∧ ∃ outs, collect (b.body.outputs.map marshalOutput) = .ok outs := by
  obtain ⟨h, b', k, e, rfl, -⟩ := hb.run
  rw [foldl_sign] at e
  generalize hb1 : { (AddChangeIfNeeded C b addr) with xprvs := (AddChangeIfNeeded C b addr).xprvs ++ keys } = b1 at e
  have hbody1 : b1.body = { b.body with
        fee := (MinFee C b).1
        outputs := b.body.outputs ++ [⟨addr, totalIn b.body.inputs - totalOut b.body.outputs - (MinFee C b).1⟩] } := by
    rw [← hb1]; rfl
  obtain ⟨body, bb, ws, h1, h2, h3, h4, h5⟩ := build_ok C b1 b' h e
  rw [view_build b1 b' h body ws h4 h5]
  have hx : body.fee = b1.body.fee ∧ body.outputs = b1.body.outputs := by
    unfold calcAux at h1
    split at h1
    · injection h1 with h1; rw [← h1]; exact ⟨rfl, rfl⟩
    · split at h1
      · injection h1 with h1; rw [← h1]; exact ⟨rfl, rfl⟩
      · cases h1
      · cases h1
  rw [hbody1] at hx
  refine ⟨hx.1, hx.2, ?_⟩
  obtain ⟨outs', ho', -⟩ := bind_ok h2
  rw [hx.2] at ho'
  obtain ⟨as, a, hoas, ha, -⟩ := (collect_append _ _ _).1 ho'
  obtain ⟨ab, hab, -⟩ := output_length _ _ _ ha
  exact ⟨⟨ab, hab⟩, as, hoas⟩

/-- Size of a built transaction with metadata that always takes `n` bytes. -/
theorem built_length (C : Crypto) (hH : ∀ m, (C.blake256 m).length = 32)
    (hpk : ∀ k pk, C.publicKey k = .ok pk → pk.length = 32) (hsg : ∀ k msg s, C.sign k msg = .ok s → s.length = 64)
    (b : Builder) (addr : Address) (keys : List Bytes) (n : Nat) (t : Tx) (bs : Bytes)
    (hd : ∀ k, ∃ m, marshalMetadata b.metadata k = .ok m ∧ m.length = n) (hx : b.metadata = none → b.body.auxHash = [])
    (hlk : (b.xprvs ++ keys).length < 2 ^ 63) (hb : Built C b addr keys t bs) :
    ∃ outs, collect (t.body.outputs.map marshalOutput) = .ok outs ∧
      bs.length = 6 + (encArray (b.body.inputs.map marshalInput)).length + (encArray outs).length + uintSize t.body.fee.toNat +
        (if b.body.ttl = 0 then 0 else 1 + uintSize b.body.ttl.toNat) + auxSize b.metadata + wsize (b.xprvs ++ keys).length + n := by
  obtain ⟨h, b', k, e, rfl, eb⟩ := hb.run
  rw [foldl_sign] at e
  generalize hb1 : { (AddChangeIfNeeded C b addr) with xprvs := (AddChangeIfNeeded C b addr).xprvs ++ keys } = b1 at e
  have hm1 : b1.metadata = b.metadata := by rw [← hb1]; rfl
  have hi1 : b1.body.inputs = b.body.inputs ∧ b1.body.ttl = b.body.ttl ∧ b1.body.auxHash = b.body.auxHash := by rw [← hb1]; exact ⟨rfl, rfl, rfl⟩
  have hk1 : b1.xprvs = b.xprvs ++ keys := by rw [← hb1]; rfl
  obtain ⟨body, bb, ws, h1, h2, h3, h4, h5⟩ := build_ok C b1 b' h e
  have hv := view_build b1 b' h body ws h4 h5
  obtain ⟨m, hm, -⟩ := hd b1.clock
  obtain ⟨m', hm', -⟩ := hd k
  obtain ⟨m'', hm'', hn''⟩ := hd (k + 1)
  have hc : calcAux C (tx b1) b1.clock = .ok { b1.body with auxHash := auxOf C b.metadata b1.body.auxHash m } := by
    have := calcAux_of C (tx b1) m b1.clock (by show marshalMetadata b1.metadata _ = _; rw [hm1]; exact hm)
    rw [this]
    show Res.ok { b1.body with auxHash := auxOf C b1.metadata b1.body.auxHash m } = _
    rw [hm1]
  rw [hc] at h1
  injection h1 with h1
  rw [hv, hm1] at eb
  have hc2 : calcAux C ⟨body, ws, b1.valid, b.metadata⟩ k =
      .ok { body with auxHash := auxOf C b.metadata body.auxHash m' } := calcAux_of C _ m' k hm'
  obtain ⟨body', e0, eb⟩ := bind_ok eb
  rw [hc2] at e0
  injection e0 with e0
  have hbase : auxOf C b.metadata body.auxHash m' = auxOf C b.metadata [] m' := by
    rw [← h1, hi1.2.2]
    simp only [auxOf_idem]
    cases hmd : b.metadata with
    | none => exact hx hmd
    | some d => rfl
  have hxx : body'.auxHash = auxOf C b.metadata [] m' := by rw [← e0]; exact hbase
  have has := auxSize_of C hH b.metadata m'
  obtain ⟨outs', ho', _⟩ := bind_ok h2
  obtain ⟨bs', hbs', hlen⟩ := tx_size ⟨body', ws, b1.valid, b.metadata⟩ (k + 1) outs' m'' (by rw [← e0]; exact ho') hm''
    (by rw [show (Tx.mk body' ws b1.valid b.metadata).body.auxHash = _ from hxx]; exact has.1)
  have : bs = bs' := by rw [hbs'] at eb; injection eb with eb; exact eb.symm
  subst this
  have hall := witnessesOf_ok C _ _ _ h3
  rw [hk1] at hall
  have hwl : ws.length = (b.xprvs ++ keys).length := All2.length_eq hall
  have hstd : StdWit ws := by
    intro w hw
    obtain ⟨y, _, h1, h2⟩ := All2.mem_left hall w hw
    exact ⟨hpk _ _ h1, hsg _ _ _ h2⟩
  have w1 : (marshalWitness ws).length = wsize (b.xprvs ++ keys).length := by rw [witness_length ws hstd (by omega), ← hwl]; rfl
  rw [hv]
  refine ⟨outs', ho', ?_⟩
  have b1' : body'.inputs = b.body.inputs := by rw [← e0, ← h1]; exact hi1.1
  have b2' : body'.ttl = b.body.ttl := by rw [← e0, ← h1]; exact hi1.2.1
  have b3' : body'.fee = body.fee := by rw [← e0]
  simp only [b1', b2', b3', hxx, has.2, w1, hn''] at hlen
  omega

/-- **C86.** The order in which the entries of maps in the metadata are written changes neither the fee nor the size: two runs of the same session with the same
metadata value pay the same fee, return the same change, and give byte strings of the same length. -/
theorem C86_order_changes_no_size (C : Crypto) (hH : ∀ m, (C.blake256 m).length = 32)
    (hpk : ∀ k pk, C.publicKey k = .ok pk → pk.length = 32) (hsg : ∀ k msg s, C.sign k msg = .ok s → s.length = 64)
    (b : Builder) (addr : Address) (keys : List Bytes) (v : GoVal) (md md' : Metadata) (t t' : Tx) (bs bs' : Bytes)
    (hv : IsMeta v md) (hv' : IsMeta v md') (hlk : (b.xprvs ++ keys).length < 2 ^ 63)
    (h : Built C (setMetadata b (some md)) addr keys t bs) (h' : Built C (setMetadata b (some md')) addr keys t' bs') :
    t.body.fee = t'.body.fee ∧ t.body.outputs = t'.body.outputs ∧ bs.length = bs'.length := by
  obtain ⟨n, hn, hl⟩ := isMeta_length v md hv
  obtain ⟨n', hn', hl'⟩ := isMeta_length v md' hv'
  obtain ⟨b0, hb0⟩ := encodes_exists v
  have : n = n' := by rw [← hn _ hb0, hn' _ hb0]
  subst this
  obtain ⟨a1, a2, ⟨ab, hab⟩, outs, ho⟩ := built_amounts C _ addr keys t bs h
  obtain ⟨a1', a2', -, -⟩ := built_amounts C _ addr keys t' bs' h'
  have hfee : (MinFee C (setMetadata b (some md))).1 = (MinFee C (setMetadata b (some md'))).1 := by
    obtain ⟨outs', ho'⟩ := feeOuts_ok (setMetadata b (some md)) outs ho
    obtain ⟨l1, l2, f1, e1, e2, base, g0, g1, g2⟩ := minFee_of C hH (setMetadata b (some md)) n outs' hl ho'
    obtain ⟨l1', l2', f1', e1', e2', base', g0', g1', g2'⟩ := minFee_of C hH (setMetadata b (some md')) n outs' hl' ho'
    have hbase : base = base' := by rw [g0, g0']; rfl
    have hl1 : l1 = l1' := by rw [g1, g1', hbase]; rfl
    have hf1 : f1 = f1' := by rw [e1, e1', hl1]; rfl
    have hl2 : l2 = l2' := by rw [g2, g2', hbase, hf1]
    rw [e2, e2', hl2]; rfl
  have hout : t.body.outputs = t'.body.outputs := by rw [a2, a2', hfee]; rfl
  refine ⟨by rw [a1, a1', hfee], hout, ?_⟩
  obtain ⟨o1, p1, q1⟩ := built_length C hH hpk hsg (setMetadata b (some md)) addr keys n t bs hl nofun hlk h
  obtain ⟨o2, p2, q2⟩ := built_length C hH hpk hsg (setMetadata b (some md')) addr keys n t' bs' hl' nofun hlk h'
  rw [hout, p2] at p1
  injection p1 with p1
  subst p1
  rw [q1, q2, a1, a1', hfee]; rfl

/-- **C86.** The fee theorem C20 with metadata that is any Go value: the fee suffices whatever the orders of the five encoder calls involved. -/
theorem C86_fee_sufficient_partial (C : Crypto) (hH : ∀ m, (C.blake256 m).length = 32)
    (hpk : ∀ k pk, C.publicKey k = .ok pk → pk.length = 32) (hsg : ∀ k msg s, C.sign k msg = .ok s → s.length = 64)
    (p : Protocol) (key : Bytes) (ins : List TxInput) (outs : List TxOutput) (ttl : UInt32) (v : GoVal) (md : Metadata)
    (addr : Address) (t : Tx) (bs ab : Bytes) (hv : IsMeta v md)
    (hb : Built C (setMetadata (SetTTL (AddOutputs (AddInputs (NewTxBuilder p [key]) ins) outs) ttl) (some md)) addr [] t bs)
    (hol : outs.length < 2 ^ 32) (hab : marshalAddress addr = .ok ab) (habl : ab.length ≤ 59)
    (hI : sumIn ins < 2 ^ 64) (hlt : sumOut outs < sumIn ins) (hcover : sumOut outs + t.body.fee.toNat ≤ sumIn ins)
    (hwidth : sumIn ins - sumOut outs < 200000 ∨ uintSize (sumIn ins - sumOut outs - t.body.fee.toNat) ≤ uintSize (sumIn ins - sumOut outs - 200000))
    (hfix : 65536 ≤ p.txFeeFixed.toNat) (hfix2 : p.txFeeFixed.toNat < 2 ^ 31) (hper : p.txFeePerByte.toNat < 2 ^ 16)
    (hmax : bs.length ≤ 16384) :
    linearFee p bs.length ≤ t.body.fee.toNat := by
  obtain ⟨n, -, hl⟩ := isMeta_length v md hv
  exact C20_fee_sufficient_partial C _ addr [] t bs ab hb ⟨hH, hpk, hsg, ⟨n, hl⟩, nofun, fun w hw => by cases hw⟩ (Nat.le_refl _) (by decide : 0 ≤ 100)
    hol hab habl hI hlt hcover hwidth hfix hfix2 hper hmax

/-- C86: two runs in which the orders differ. -/
example : ∃ (t t' : Tx) (bs bs' : Bytes),
    Built sampleCrypto (setMetadata (sampleBuilder 10000000 5000000 []) (some (alternating 0))) sampleAddr [[7]] t bs ∧
    Built sampleCrypto (setMetadata (sampleBuilder 10000000 5000000 []) (some (alternating 1))) sampleAddr [[7]] t' bs' ∧ bs ≠ bs' := by
  refine ⟨_, _, _, _, built_of_ok _ _ _ _ (by decide +kernel) (by decide +kernel), built_of_ok _ _ _ _ (by decide +kernel) (by decide +kernel), by decide +kernel⟩

/-- C86, fee: the same, in numbers. -/
example : ∃ (t : Tx) (bs ab : Bytes),
    Built sampleCrypto (setMetadata (SetTTL (AddOutputs (AddInputs (NewTxBuilder ⟨44, 155381, 16384, 1000000⟩ [[7]])
      [NewTxInput (asc "fcbc18c64cdf133f33dd319c5105dc7c4972f2d646ae276fbd00cf7f39f8c380".toList) 0 10000000])
      [⟨.base MainNet goldenPayment goldenStake, 5000000⟩]) 100) (some (alternating 0))) sampleAddr [] t bs ∧
    marshalAddress sampleAddr = .ok ab ∧ ab.length ≤ 59 ∧ 5000000 + t.body.fee.toNat ≤ 10000000 ∧
    uintSize (10000000 - 5000000 - t.body.fee.toNat) ≤ uintSize (10000000 - 5000000 - 200000) ∧ bs.length ≤ 16384 := by
  refine ⟨_, _, sampleAddrBytes, built_of_ok _ _ _ _ (by decide +kernel) (by decide +kernel), ?_, ?_, ?_, ?_, ?_⟩ <;> decide +kernel

/-! ### C87 -/

/-- What the ledger reads in a transaction with metadata. -/
theorem read_meta (C : Crypto) (hH : ∀ m, (C.blake256 m).length = 32) (t : Tx) (k : Nat) (bs : Bytes) (v : GoVal) (md : Metadata)
    (hm : t.metadata = some md) (hv : IsMeta v md) (hf : v.Fits) (hb : BodyFits t.body) (hw : WitnessFits t.witness)
    (h : Transaction.bytes C t k = .ok bs) (tv : Ledger.TxView) (hr : read bs = some tv) :
    ∃ b1 b2 x, md.enc k = .ok b1 ∧ md.enc (k + 1) = .ok b2 ∧ tv.auxHash = some (C.blake256 b1) ∧ Represents v x ∧ readAux x b2 = some tv.aux := by
  obtain ⟨b1, e1, -⟩ := hv k
  obtain ⟨b2, e2, he2⟩ := hv (k + 1)
  obtain ⟨x, hx, hrx⟩ := enc_of_encodes v b2 hf he2
  obtain ⟨body, hc, h⟩ := bind_ok h
  have hc' : { t.body with auxHash := C.blake256 b1 } = body := by
    unfold calcAux at hc; rw [hm] at hc
    simp only [e1] at hc; injection hc
  subst hc'
  obtain ⟨bb, m, g1, g2, g3⟩ := marshalTx_parts _ _ _ h
  have g2 : marshalMetadata t.metadata (k + 1) = .ok m := g2
  rw [hm] at g2
  have g2 : md.enc (k + 1) = .ok m := g2
  rw [e2] at g2; injection g2 with g2; subst g2
  have hread := Ledger.read_bytes { t.body with auxHash := C.blake256 b1 } t.witness t.valid bb b2 x
    ⟨hb.inputs, hb.outputs, hb.hashes, hb.addrs, by simp only [hH]; decide⟩ hw g1 hx.parse
  dsimp only at hread
  rw [← g3, hr] at hread
  obtain ⟨aux, ha, rfl, -⟩ := Ledger.assemble_of _ _ _ _ _ _ _ _ hread.symm
  refine ⟨b1, b2, x, e1, e2, ?_, hrx, ha⟩
  show (if C.blake256 b1 = [] then none else some (C.blake256 b1)) = _
  rw [if_neg]
  intro h0
  have := hH b1
  rw [h0] at this
  cases this

/-- A slice, a map, a struct, or the tag 259 of auxiliary data since Alonzo. -/
def Container : GoVal → Prop
  | .list _ _ => True
  | .map _ _ _ => True
  | .record _ _ _ => True
  | .tag t _ => t.toNat = 259
  | .raw b => ∃ x, parse b = some x ∧ ((∃ l, x = .array l) ∨ (∃ l, x = .map l) ∨ ∃ y, x = .tag 259 y)
  | _ => False

theorem readAux_container (v : GoVal) (x : Item) (b : Bytes) (h : Represents v x) (hc : Container v) : readAux x b = some (some b) := by
  cases v with
  | list n xs => obtain ⟨is, rfl, -⟩ := h; rfl
  | map n ks vs => obtain ⟨ki, vi, order, -, rfl, -⟩ := h; rfl
  | record n ks vs => obtain ⟨ki, vi, rfl, -⟩ := h; rfl
  | tag t v =>
    obtain ⟨y, rfl, -⟩ := h
    rw [show t.toNat = 259 from hc]; rfl
  | raw c =>
    obtain ⟨y, h1, h2⟩ := hc
    rw [show parse c = some x from h] at h1
    obtain rfl := Option.some.inj h1
    rcases h2 with ⟨l, rfl⟩ | ⟨l, rfl⟩ | ⟨y, rfl⟩ <;> rfl
  | _ => exact absurd hc id

/-- The ledger finds auxiliary data in nothing else. -/
theorem readAux_other (x : Item) (b : Bytes) (h : ¬ ((∃ l, x = .array l) ∨ (∃ l, x = .map l) ∨ ∃ y, x = .tag 259 y)) : readAux x b = none ∨ readAux x b = some none := by
  unfold readAux
  split
  · exact Or.inr rfl
  · exact absurd (Or.inr (Or.inl ⟨_, rfl⟩)) h
  · exact absurd (Or.inl ⟨_, rfl⟩) h
  · exact absurd (Or.inr (Or.inr ⟨_, rfl⟩)) h
  · exact Or.inl rfl

/-- If the value is none of these the ledger does not find any auxiliary data. -/
theorem readAux_scalar (v : GoVal) (x : Item) (b : Bytes) (h : Represents v x) (hc : ¬ Container v) : readAux x b = none ∨ readAux x b = some none := by
  cases v with
  | nil => rw [show x = .simple 22 from h]; exact Or.inr rfl
  | bool c => rw [show x = .simple (if c then 21 else 20) from h]; cases c <;> exact Or.inl rfl
  | uint n =>
    have h : IntItem _ x := h
    cases x with
    | uint m => exact Or.inl rfl
    | nint m => exact Or.inl rfl
    | _ => exact absurd h id
  | int n =>
    have h : IntItem _ x := h
    cases x with
    | uint m => exact Or.inl rfl
    | nint m => exact Or.inl rfl
    | _ => exact absurd h id
  | bytes c => rw [show x = .bytes c from h]; exact Or.inl rfl
  | text c => rw [show x = .text c from h]; exact Or.inl rfl
  | list n xs => exact absurd trivial hc
  | map n ks vs => exact absurd trivial hc
  | record n ks vs => exact absurd trivial hc
  | float64 bits => obtain ⟨w, c, rfl, -⟩ := h; exact Or.inl rfl
  | float32 bits => obtain ⟨w, c, rfl, -⟩ := h; exact Or.inl rfl
  | big n =>
    have h : BigItem n x := h
    refine readAux_other x b ?_
    unfold BigItem at h
    split at h
    · cases x with
      | uint m => rintro (⟨_, h⟩ | ⟨_, h⟩ | ⟨_, h⟩) <;> cases h
      | nint m => rintro (⟨_, h⟩ | ⟨_, h⟩ | ⟨_, h⟩) <;> cases h
      | _ => exact h.elim
    · split at h
      · obtain ⟨c, rfl, -⟩ := h
        rintro (⟨_, h⟩ | ⟨_, h⟩ | ⟨_, h⟩) <;> cases h
      · obtain ⟨c, rfl, -⟩ := h
        rintro (⟨_, h⟩ | ⟨_, h⟩ | ⟨_, h⟩) <;> cases h
  | tag t v =>
    obtain ⟨y, rfl, -⟩ := h
    refine readAux_other _ b ?_
    rintro (⟨_, h⟩ | ⟨_, h⟩ | ⟨_, h⟩)
    · cases h
    · cases h
    · injection h with h; exact hc h
  | raw c => exact readAux_other x b fun h' => hc ⟨x, h, h'⟩

/-- **C87.** With metadata, the ledger accepts the bytes only if the two encodings of the metadata made by `Bytes` have the same hash. -/
theorem C87_accepted_only_if_encodings_agree (C : Crypto) (hH : ∀ m, (C.blake256 m).length = 32) (t : Tx) (k : Nat) (bs : Bytes) (v : GoVal) (md : Metadata)
    (hm : t.metadata = some md) (hv : IsMeta v md) (hf : v.Fits) (hb : BodyFits t.body) (hw : WitnessFits t.witness)
    (h : Transaction.bytes C t k = .ok bs) (L : Ledger.Crypto) (hL : L.hash256 = C.blake256) (e : Env) (u : UTxO) (ha : Ledger.Valid L e u bs) :
    ∃ b1 b2, md.enc k = .ok b1 ∧ md.enc (k + 1) = .ok b2 ∧ C.blake256 b1 = C.blake256 b2 := by
  obtain ⟨tv, hr, ha⟩ := ha
  obtain ⟨b1, b2, x, e1, e2, h3, h4, h5⟩ := read_meta C hH t k bs v md hm hv hf hb hw h tv hr
  refine ⟨b1, b2, e1, e2, ?_⟩
  have haux := ha.aux
  rw [h3, hL] at haux
  by_cases hc : Container v
  · rw [readAux_container v x b2 h4 hc] at h5
    injection h5 with h5
    rw [← h5] at haux
    injection haux
  · rcases readAux_scalar v x b2 h4 hc with h6 | h6
    · rw [h6] at h5; cases h5
    · rw [h6] at h5; injection h5 with h5
      rw [← h5] at haux; cases haux

/-- **C87 is false for maps**: for every metadata value that contains a map of two or more entries there is a behaviour of Go's map iteration with which the ledger
rejects the bytes of every transaction with this metadata, however it was built (unless two encodings of the value have the same hash). -/
theorem C87_map_order_rejected (C : Crypto) (hH : ∀ m, (C.blake256 m).length = 32) (v : GoVal) (hf : v.Fits) (hp : v.Proper) (ho : ¬ v.OrderFree)
    (hcol : ∀ b b', Marshals v b → Marshals v b' → C.blake256 b = C.blake256 b' → b = b') :
    ∃ md, IsMeta v md ∧ ∀ (t : Tx) (k : Nat) (bs : Bytes), t.metadata = some md → BodyFits t.body → WitnessFits t.witness →
      Transaction.bytes C t k = .ok bs → ∀ (L : Ledger.Crypto) (e : Env) (u : UTxO), L.hash256 = C.blake256 → ¬ Ledger.Valid L e u bs := by
  obtain ⟨b, b', h, h', hne⟩ := encodes_ambiguous v hf hp ho
  let md : Metadata := ⟨fun k => .ok (if k % 2 = 0 then b else b')⟩
  have hmd : IsMeta v md := by
    intro k
    refine ⟨_, rfl, ?_⟩
    split
    · exact h
    · exact h'
  refine ⟨md, hmd, fun t k bs hm hb hw hbs L e u hL ha => ?_⟩
  obtain ⟨b1, b2, e1, e2, e3⟩ := C87_accepted_only_if_encodings_agree C hH t k bs v md hm hmd hf hb hw hbs L hL e u ha
  have e1 : (if k % 2 = 0 then b else b') = b1 := by injection e1
  have e2 : (if (k + 1) % 2 = 0 then b else b') = b2 := by injection e2
  have : b1 = b2 := by
    apply hcol _ _ _ _ e3
    · rw [← e1]; split; exact h; exact h'
    · rw [← e2]; split; exact h; exact h'
  rw [← e1, ← e2] at this
  by_cases c : k % 2 = 0
  · rw [if_pos c, if_neg (by omega)] at this; exact hne this
  · rw [if_neg c, if_pos (by omega)] at this; exact hne this.symm

/-- **C87 (partial).** A slice or map in which all maps have at most one entry is encoded the same way every time, so C77 (acceptance by the ledger), C27 (the hash in the
body is the one of the metadata), C24, C26, C59 (what was signed is what is submitted) apply to it. Missing: maps with more entries, for which this is false. -/
theorem C87_order_free_partial (v : GoVal) (md : Metadata) (hv : IsMeta v md) (hf : v.Fits) (ho : v.OrderFree) :
    Deterministic (some md) ∧ (Container v → GoodMetadata (some md)) ∧ ∀ k b, md.enc k = .ok b → ∃ x, parse b = some x ∧ Represents v x := by
  obtain ⟨b, hb⟩ := encodes_exists v
  obtain ⟨x, hx, hr⟩ := enc_of_encodes v b hf hb
  have hall : ∀ k, md.enc k = .ok b := by
    intro k
    obtain ⟨b', e, hb'⟩ := hv k
    rw [e, encodes_unique v b ho hb b' hb']
  refine ⟨fun d e i j => ?_, fun hc => Or.inr ⟨md, b, x, rfl, hall, hx.parse, readAux_container v x b hr hc⟩, fun k b' e => ?_⟩
  · injection e with e; subst e; rw [hall, hall]
  · rw [hall] at e; injection e with e; subst e
    exact ⟨x, hx.parse, hr⟩

theorem body_aux_inj (b : TxBody) (a a' : Bytes) (ha : a.length = 32) (ha' : a'.length = 32) (hb : BodyFits { b with auxHash := a }) (bb : Bytes)
    (h : marshalBody { b with auxHash := a } = .ok bb) (h' : marshalBody { b with auxHash := a' } = .ok bb) : a = a' := by
  have e := body_enc { b with auxHash := a } hb bb h
  have e' := body_enc { b with auxHash := a' } ⟨hb.inputs, hb.outputs, hb.hashes, hb.addrs, by simp only [ha']; decide⟩ bb h'
  have hi : bodyItem { b with auxHash := a } = bodyItem { b with auxHash := a' } := by
    have := e.parse.symm.trans e'.parse
    injection this
  have hp := Ledger.fieldsOf_body { b with auxHash := a }
  rw [hi, Ledger.fieldsOf_body] at hp
  injection hp with hp
  have l := (Ledger.lookup_body { b with auxHash := a }).2.2.2.2
  have l' := (Ledger.lookup_body { b with auxHash := a' }).2.2.2.2
  have n : a ≠ [] := fun h => by rw [h] at ha; cases ha
  have n' : a' ≠ [] := fun h => by rw [h] at ha'; cases ha'
  rw [← hp, l', if_neg n, if_neg n'] at l
  injection l with l
  injection l with l
  exact l.symm

/-- C87: the conditions of the last two theorems hold for some values and some hash. -/
example : ∃ C : Crypto, (∀ m, (C.blake256 m).length = 32) ∧ twoLabels.Fits ∧ twoLabels.Proper ∧ ¬ twoLabels.OrderFree ∧
    ∀ b b', Marshals twoLabels b → Marshals twoLabels b' → C.blake256 b = C.blake256 b' → b = b' := by
  refine ⟨⟨fun m => (m ++ List.replicate 32 0).take 32, fun _ => .panic, fun _ _ => .panic⟩, fun m => by simp, twoLabels_ok.1, twoLabels_ok.2.1, twoLabels_ok.2.2, ?_⟩
  intro b b' h h' e
  have l := encodes_length _ _ twoLabels_encodings.1 b h
  have l' := encodes_length _ _ twoLabels_encodings.1 b' h'
  have e := congrArg (List.take 6) e
  simp only [List.take_take] at e
  rw [List.take_append_of_le_length (by rw [← l]; decide), List.take_append_of_le_length (by rw [← l']; decide), List.take_of_length_le (by rw [← l]; decide),
    List.take_of_length_le (by rw [← l']; decide)] at e
  exact e

example : ∃ (v : GoVal) (md : Metadata), IsMeta v md ∧ v.Fits ∧ v.OrderFree ∧ Container v := by
  let v : GoVal := .map 1 (fun _ => .uint 674) (fun _ => .list 2 fun i => if i = 0 then .text [0x68, 0x69] else .int (-5))
  obtain ⟨md, h⟩ := isMeta_exists v
  refine ⟨v, md, h, ⟨by decide, fun _ => trivial, fun _ => ⟨by decide, fun i => ?_⟩⟩, ⟨by decide, fun _ => trivial, fun _ i => ?_⟩, trivial⟩
  · match i with
    | 0 => exact (by decide : 2 < 2 ^ 63)
    | 1 => trivial
  · match i with
    | 0 => trivial
    | 1 => trivial

/-- **C87.** What was signed against what is submitted, exactly: the witnesses of a built transaction sign the hash of a body, and the bytes contain that same body if
and only if the encodings of the metadata during `Build` and during `Bytes` have the same hash. -/
theorem C87_signed_is_submitted_iff (C : Crypto) (hH : ∀ m, (C.blake256 m).length = 32) (b b' : Builder) (h : Handle) (md : Metadata) (b1 b2 : Bytes)
    (e : Build C b = (.ok h, b')) (hm : b.metadata = some md) (k : Nat) (bs : Bytes) (h1 : md.enc b.clock = .ok b1) (h2 : md.enc k = .ok b2)
    (hb : BodyFits (view b' h).body) (eb : bytes C (view b' h) k = .ok bs) :
    ∃ signed submitted rest x, bs = 0x84 :: (submitted ++ rest) ∧ parseFirst (submitted ++ rest) = some (x, rest) ∧
      All2 (fun (w : VKeyWitness) key => C.publicKey key = .ok w.vkey ∧ C.sign key (C.blake256 signed) = .ok w.signature) (view b' h).witness b.xprvs ∧
      (signed = submitted ↔ C.blake256 b1 = C.blake256 b2) := by
  obtain ⟨body, bb, ws, g1, g2, g3, g4, g5⟩ := build_ok C b b' h e
  have hv := view_build b b' h body ws g4 g5
  rw [hv] at eb hb ⊢
  have hbody : { b.body with auxHash := C.blake256 b1 } = body := by
    have := calcAux_of C (tx b) b1 b.clock (by show marshalMetadata b.metadata _ = _; rw [hm]; exact h1)
    rw [this] at g1
    injection g1 with g1
    rw [← g1]
    show _ = { b.body with auxHash := auxOf C b.metadata b.body.auxHash b1 }
    rw [hm]; rfl
  obtain ⟨body', f1, eb⟩ := bind_ok eb
  have hbody' : { b.body with auxHash := C.blake256 b2 } = body' := by
    have := calcAux_of C ⟨body, ws, b.valid, b.metadata⟩ b2 k (by show marshalMetadata b.metadata _ = _; rw [hm]; exact h2)
    rw [this] at f1
    injection f1 with f1
    rw [← f1]
    show _ = { body with auxHash := auxOf C b.metadata body.auxHash b2 }
    rw [hm, ← hbody]; rfl
  obtain ⟨bb', m, j1, j2, j3⟩ := marshalTx_parts _ _ _ eb
  have j1 : marshalBody body' = .ok bb' := j1
  have hbf : BodyFits { b.body with auxHash := C.blake256 b1 } := by rw [hbody]; exact hb
  have enc := body_enc body' (by rw [← hbody']; exact ⟨hbf.inputs, hbf.outputs, hbf.hashes, hbf.addrs, by simp only [hH]; decide⟩) bb' j1
  refine ⟨bb, bb', marshalWitness ws ++ encBool b.valid ++ m, bodyItem body', by rw [j3]; simp, enc.parseFirst _, witnessesOf_ok C _ _ _ g3, fun hs => ?_, fun hs => ?_⟩
  · subst hs
    exact body_aux_inj b.body _ _ (hH _) (hH _) hbf bb (by rw [hbody]; exact g2) (by rw [hbody']; exact j1)
  · rw [← hbody, hs, hbody', j1] at g2
    injection g2 with g2
    exact g2.symm

/-! ### C88 -/

/-- **C88.** Metadata that is neither a slice nor a map, in particular a nil map or slice stored in the metadata field (which is then not a nil interface), makes a
transaction that the ledger rejects: the body has a hash of auxiliary data and there is none. -/
theorem C88_empty_metadata_rejected (C : Crypto) (hH : ∀ m, (C.blake256 m).length = 32) (t : Tx) (k : Nat) (bs : Bytes) (v : GoVal) (md : Metadata)
    (hm : t.metadata = some md) (hv : IsMeta v md) (hf : v.Fits) (hc : ¬ Container v) (hb : BodyFits t.body) (hw : WitnessFits t.witness)
    (h : Transaction.bytes C t k = .ok bs) (L : Ledger.Crypto) (e : Env) (u : UTxO) : ¬ Ledger.Valid L e u bs := by
  rintro ⟨tv, hr, ha⟩
  obtain ⟨b1, b2, x, e1, e2, h3, h4, h5⟩ := read_meta C hH t k bs v md hm hv hf hb hw h tv hr
  have haux := ha.aux
  rw [h3] at haux
  rcases readAux_scalar v x b2 h4 hc with h6 | h6
  · rw [h6] at h5; cases h5
  · rw [h6] at h5; injection h5 with h5
    rw [← h5] at haux; cases haux

/-- C88: a nil map as metadata; the encoding is `f6`. -/
example : ∃ (t : Tx) (md : Metadata) (bs : Bytes), t.metadata = some md ∧ IsMeta .nil md ∧ GoVal.nil.Fits ∧ ¬ Container .nil ∧ BodyFits t.body ∧ WitnessFits t.witness ∧
    Transaction.bytes (goldenCrypto []) t 0 = .ok bs := by
  exact ⟨⟨⟨[], [], 0, 0, []⟩, [], true, some ⟨fun _ => .ok encNil⟩⟩, _, _, rfl, fun _ => ⟨_, rfl, .nil⟩, trivial, id, ⟨by simp, by simp, by simp, by simp, by simp⟩,
    ⟨by simp, by simp⟩, rfl⟩

/-- C87: a built transaction, the metadata being written in another order by `Bytes` than by `Build`. -/
example : ∃ (h : Handle) (b' : Builder) (bs b1 b2 : Bytes),
    Build sampleCrypto (setMetadata (NewTxBuilder ⟨44, 155381, 16384, 1000000⟩ [[7]]) (some (alternating 0))) = (.ok h, b') ∧
    (alternating 0).enc 0 = .ok b1 ∧ (alternating 0).enc 1 = .ok b2 ∧ b1 ≠ b2 ∧ BodyFits (view b' h).body ∧ bytes sampleCrypto (view b' h) 1 = .ok bs := by
  refine ⟨_, _, _, _, _, rfl, rfl, rfl, by decide, ⟨?_, ?_, ?_, ?_, ?_⟩, rfl⟩
  · exact (by decide : 0 < 2 ^ 63)
  · exact (by decide : 0 < 2 ^ 63)
  · intro i hi; cases hi
  · intro o ho; cases ho
  · exact (by decide +kernel : (List.replicate 32 (0 : UInt8)).length < 2 ^ 63)

end Cardano.Props
