import Verif.Props.Asked
import Verif.Props.Keys
/-!
# Property C130: a transaction altered on its way, signatures used elsewhere
-/
set_option autoImplicit false

namespace Cardano.Props
open Ed Bip32 Cbor TxSpec Transaction TxBuilder
open Ledger (read refOf outOf witOf UTxO Env)

/-- The number that a signature multiplies the public key with (RFC 8032): it depends on the point of the signature, the key and the message. -/
def challenge (H : Hashes) (w : Bytes × Bytes) (msg : Bytes) : Nat := leNat (H.sha512 (w.2.take 32 ++ w.1 ++ msg)) % L

/-- **C130, signatures.** A signature is valid for another message exactly if the message gives the same challenge. The scalar must not be a multiple of the group order. -/
theorem C130_signature_binds (H : Hashes) (hH : H.Ok) (key : Bytes) (hk : key.length = 96) (hs : leNat (key.take 32) < 2 ^ 255) (h0 : leNat (key.take 32) % L ≠ 0)
    (m m' sig pk : Bytes) (h : Sign H key m = .ok sig) (hpk : MakePublicKey key = .ok pk) :
    Valid H.sha512 pk m' sig ↔ challenge H (pk, sig) m' = challenge H (pk, sig) m := by
  obtain ⟨pk1, -, p1, -, -, -, p2⟩ := C36_public_key key hk hs
  rw [hpk] at p1
  obtain rfl := Res.ok.inj p1
  obtain ⟨_, _, a1, a2, av⟩ := C37_signature_valid H hH key hk hs m
  rw [h] at a1
  obtain rfl := Res.ok.inj a1
  rw [hpk] at a2
  obtain rfl := Res.ok.inj a2
  obtain ⟨R, A, r1, q1, e1⟩ := av.equation
  obtain rfl := (C51_encoding_unique _).2 _ _ p2 q1
  unfold challenge
  dsimp only
  have : Fact (Nat.Prime L) := ⟨prime_l⟩
  have toZ : ∀ u v : Nat, u % L = v % L ↔ (u : ZMod L) = v := fun u v => (ZMod.natCast_eq_natCast_iff' u v L).symm
  constructor
  · intro hv
    obtain ⟨R', A', r2, q2, e2⟩ := hv.equation
    obtain rfl := (C51_encoding_unique _).2 _ _ r1 r2
    obtain rfl := (C51_encoding_unique _).2 _ _ p2 q2
    rw [e1] at e2
    have e3 := add_left_cancel e2
    rw [← mul_nsmul', ← mul_nsmul', C42_order.2, toZ] at e3
    rw [toZ]
    push_cast at e3
    have hne : ((leNat (key.take 32) : Nat) : ZMod L) ≠ 0 := by
      intro hz
      exact h0 (by rw [ZMod.natCast_eq_zero_iff] at hz; exact Nat.mod_eq_zero_of_dvd hz)
    exact (mul_right_cancel₀ hne e3).symm
  · intro e
    refine ⟨av.size, av.small, R, _, r1, p2, ?_⟩
    rw [e1, ← mul_nsmul', ← mul_nsmul']
    congr 1
    rw [C42_order.2, Nat.mul_mod, ← e, ← Nat.mul_mod]

/-- The scalars of the package are not multiples of the group order: multiples of 8 below `2^255` (C34). -/
theorem scalar_nonzero (s : Nat) (h8 : 8 ∣ s) (hl : 0 < s) (hu : s < 2 ^ 255) : s % L ≠ 0 := by
  intro h
  have hL : L = 2 ^ 252 + 27742317777372353535851937790883648493 := by decide
  obtain ⟨t, rfl⟩ := h8
  have h := Nat.dvd_of_mod_eq_zero h
  have h1 : L ∣ t := (Nat.Coprime.dvd_of_dvd_mul_left (by decide +kernel) h)
  have := Nat.le_of_dvd (by omega) h1
  omega

/-- What the ledger takes from the body is determined by its bytes. -/
theorem read_same_body (bs bs' : Bytes) (v v' : Ledger.TxView) (hv : read bs = some v) (hv' : read bs' = some v') (x : Item) (hx : Enc v.body x) (e : v'.body = v.body) :
    v'.inputs = v.inputs ∧ v'.outputs = v.outputs ∧ v'.fee = v.fee ∧ v'.ttl = v.ttl ∧ v'.auxHash = v.auxHash := by
  have inv : ∀ (bs : Bytes) (v : Ledger.TxView), read bs = some v → Enc v.body x →
      ∃ ps ins outs fee ttl aux, Ledger.fieldsOf [0, 1, 2, 3, 7] x = some ps ∧ Ledger.field ps 0 (fun i => (Ledger.elements i).bind (Ledger.all Ledger.readInput)) = some ins ∧
        Ledger.field ps 1 (fun i => (Ledger.elements i).bind (Ledger.all Ledger.readOutput)) = some outs ∧ Ledger.field ps 2 Ledger.number = some fee ∧
        Ledger.optField ps 3 Ledger.number = some ttl ∧ Ledger.optField ps 7 Ledger.byteString = some aux ∧
        v.inputs = ins ∧ v.outputs = outs ∧ v.fee = fee ∧ v.ttl = ttl ∧ v.auxHash = aux := by
    intro bs v hv hx
    unfold Ledger.read at hv
    cases bs with
    | nil => cases hv
    | cons h r0 =>
      dsimp only at hv
      split at hv
      swap
      · cases hv
      simp only [Option.bind_eq_bind, Option.bind_eq_some_iff] at hv
      obtain ⟨⟨b, r1⟩, h1, ⟨w, r2⟩, h2, ⟨f, r3⟩, h3, ⟨a, r4⟩, h4, hv⟩ := hv
      dsimp only at hv
      split at hv
      swap
      · cases hv
      unfold Ledger.assemble at hv
      simp only [Option.bind_eq_bind, Option.bind_eq_some_iff] at hv
      obtain ⟨ps, g0, ins, g1, outs, g2, fee, g3, ttl, g4, aux, g5, ws, -, wits, -, ax, -, hv⟩ := hv
      have key : v = ⟨ins, outs, fee, ttl, aux, wits.getD [], r0.take (r0.length - r1.length), ax, v.size⟩ := by
        split at hv
        · injection hv with hv; rw [← hv]
        · cases hv
      have hb : v.body = r0.take (r0.length - r1.length) := by rw [key]
      rw [hb] at hx
      have hp := hx.parseFirst (r0.drop (r0.length - r1.length))
      rw [List.take_append_drop, h1] at hp
      injection hp with hp
      injection hp with hp _
      subst hp
      exact ⟨ps, ins, outs, fee, ttl, aux, g0, g1, g2, g3, g4, g5, by rw [key], by rw [key], by rw [key], by rw [key], by rw [key]⟩
  obtain ⟨ps, ins, outs, fee, ttl, aux, g0, g1, g2, g3, g4, g5, k1, k2, k3, k4, k5⟩ := inv bs v hv hx
  obtain ⟨ps', ins', outs', fee', ttl', aux', g0', g1', g2', g3', g4', g5', k1', k2', k3', k4', k5'⟩ := inv bs' v' hv' (by rw [e]; exact hx)
  rw [g0] at g0'
  obtain rfl := Option.some.inj g0'
  rw [g1] at g1'; rw [g2] at g2'; rw [g3] at g3'; rw [g4] at g4'; rw [g5] at g5'
  rw [k1, k1', k2, k2', k3, k3', k4, k4', k5, k5']
  exact ⟨(Option.some.inj g1').symm, (Option.some.inj g2').symm, (Option.some.inj g3').symm, (Option.some.inj g4').symm, (Option.some.inj g5').symm⟩

/-- A key whose scalar is below `2^255` and not a multiple of the group order. -/
structure Usable (key : Bytes) : Prop where
  size : key.length = 96
  small : leNat (key.take 32) < 2 ^ 255
  nonzero : leNat (key.take 32) % L ≠ 0

/-- All keys that the package derives from its root keys are usable. -/
theorem C130_usable (H : Hashes) (hH : H.Ok) (pub : Bytes → Bytes) (key : Bytes) (hk : Clamped key) (path : List UInt32) (hp : path.length < 2 ^ 26) :
    ∃ child, derivePath H pub key path = .ok child ∧ Usable child := by
  obtain ⟨child, h1, h2, h3, h4, h5⟩ := C34_path_scalars H hH pub key hk path hp
  exact ⟨child, h1, h2, h5, scalar_nonzero _ h3 (by omega) h5⟩

/-- The body and the witnesses that the ledger reads in a built transaction. -/
theorem finish_witnesses (H : Hashes) (hH : H.Ok) (blake256 : Bytes → Bytes) (h256 : ∀ m, (blake256 m).length = 32)
    (b : Builder) (bs : Bytes) (hf : BuilderFits b) (hy : Finishes (packageCrypto H blake256) b bs) (v : Ledger.TxView) (hv : read bs = some v) :
    (∃ x, Enc v.body x) ∧ ∀ w ∈ v.witnesses, ∃ key ∈ b.xprvs, (packageCrypto H blake256).publicKey key = .ok w.1 ∧ Sign H key (blake256 v.body) = .ok w.2 := by
  obtain ⟨m, x, hm, hx, -⟩ := goodMetadata_enc _ hf.metadata
  obtain ⟨ws, body, h1, h2, h3⟩ := finish_parts _ b bs m hy hm
  have hwl := witnessesOf_lengths _ (package_key_length H blake256) (package_sig_length H hH blake256) _ _ _ h3
  have hwf : WitnessFits ws := ⟨by rw [hwl.1]; exact hf.keys, fun w hw => by have := hwl.2 w hw; omega⟩
  have hbf : BodyFits { b.body with auxHash := auxOf (packageCrypto H blake256) b.metadata b.body.auxHash m } := by
    refine ⟨hf.inputs, hf.outputs, hf.ids, hf.addrs, ?_⟩
    show (auxOf _ _ _ _).length < _
    cases b.metadata with
    | none => exact hf.aux
    | some d => show (blake256 m).length < _; rw [h256]; decide
  have hread := Ledger.read_bytes _ ws b.valid body m x hbf hwf h1 hx
  rw [← h2] at hread
  dsimp only at hread
  rw [hv] at hread
  obtain ⟨aux, -, rfl, -⟩ := Ledger.assemble_of _ _ _ _ _ _ _ _ hread.symm
  refine ⟨⟨_, body_enc _ hbf body h1⟩, ?_⟩
  intro w hw
  obtain ⟨w0, hw0, rfl⟩ := List.mem_map.1 hw
  have ha := witnessesOf_ok _ _ _ _ h3
  generalize b.xprvs = keys at ha ⊢
  clear * - ha hw0
  induction ha with
  | nil => cases hw0
  | @cons a k ws ks h _ ih =>
    rcases List.mem_cons.1 hw0 with rfl | hw
    · exact ⟨k, List.mem_cons_self, h.1, h.2⟩
    · obtain ⟨k', h1, h2⟩ := ih hw
      exact ⟨k', List.mem_cons_of_mem _ h1, h2⟩

/-- **C130.** Someone takes a witness out of a built transaction and puts it into any other bytes. If a ledger, in any state, accepts these bytes, then they spend and pay
what the built transaction spends and pays, and what is unspent afterwards is the same; unless the bodies are different and lead to the same challenge. -/
theorem C130_altered (H : Hashes) (hH : H.Ok) (blake224 blake256 : Bytes → Bytes) (h256 : ∀ m, (blake256 m).length = 32)
    (b : Builder) (bs : Bytes) (hf : BuilderFits b) (hk : ∀ k ∈ b.xprvs, Usable k) (hy : Finishes (packageCrypto H blake256) b bs)
    (v : Ledger.TxView) (hv : read bs = some v) (bs' : Bytes) (v' : Ledger.TxView) (hv' : read bs' = some v') (e : Env) (u : UTxO)
    (ha : Ledger.Accepts (ledgerCrypto H blake224 blake256) e u v') (w : Bytes × Bytes) (hw : w ∈ v.witnesses) (hw' : w ∈ v'.witnesses)
    (hno : challenge H w (blake256 v'.body) = challenge H w (blake256 v.body) → v'.body = v.body) :
    v'.inputs = b.body.inputs.map refOf ∧ v'.outputs = b.body.outputs.map outOf ∧ v'.fee = b.body.fee.toNat ∧
    v'.ttl = (if b.body.ttl = 0 then none else some b.body.ttl.toNat) ∧ v'.auxHash = v.auxHash ∧
    ∀ u', Ledger.apply (ledgerCrypto H blake224 blake256) u' v' = Ledger.apply (ledgerCrypto H blake224 blake256) u' v := by
  obtain ⟨⟨x, hx⟩, hwit⟩ := finish_witnesses H hH blake256 h256 b bs hf hy v hv
  obtain ⟨key, hkey, w1, w2⟩ := hwit w hw
  obtain ⟨k1, k2, k3⟩ := hk key hkey
  rw [packageCrypto_publicKey H blake256 key k1 k2] at w1
  have hval : Valid H.sha512 w.1 (blake256 v'.body) w.2 := ha.signatures w hw'
  have hbody := hno ((C130_signature_binds H hH key k1 k2 k3 _ _ _ _ w2 w1).1 hval)
  obtain ⟨r1, r2, r3, r4, r5⟩ := read_same_body bs bs' v v' hv hv' x hx hbody
  obtain ⟨f1, f2, f3, -, f4⟩ := finish_read H hH blake256 h256 b bs hf hy v hv
  refine ⟨r1.trans f1, r2.trans f2, r3.trans f3, r4.trans f4, r5, fun u' => ?_⟩
  unfold Ledger.apply
  rw [r1, r2, hbody]

/-- **C130, metadata.** The auxiliary data is the same too, unless two different ones have the same hash. -/
theorem C130_metadata (LC : Ledger.Crypto) (e e' : Env) (u u' : UTxO) (v v' : Ledger.TxView) (ha : Ledger.Accepts LC e u v) (ha' : Ledger.Accepts LC e' u' v')
    (h : v'.auxHash = v.auxHash) (hno : ∀ a a', v.aux = some a → v'.aux = some a' → LC.hash256 a' = LC.hash256 a → a' = a) : v'.aux = v.aux := by
  have h1 := ha.aux
  have h2 := ha'.aux
  rw [h, h1] at h2
  cases g : v.aux with
  | none =>
    rw [g] at h2
    cases g' : v'.aux with
    | none => rfl
    | some a' => rw [g'] at h2; cases h2
  | some a =>
    rw [g] at h2
    cases g' : v'.aux with
    | none => rw [g'] at h2; cases h2
    | some a' =>
      rw [g'] at h2
      rw [hno a a' g g' (Option.some.inj h2).symm]

/-- A transaction that a user has built and given away. -/
structure Issued (H : Hashes) (blake256 : Bytes → Bytes) (b : Builder) (v : Ledger.TxView) : Prop where
  fits : BuilderFits b
  keys : ∀ k ∈ b.xprvs, Usable k
  built : ∃ bs, Finishes (packageCrypto H blake256) b bs ∧ read bs = some v

/-- **C130, wallets.** A user has issued some transactions, and others have no signatures of the user's key but those in them. Then whatever transaction spends an output
locked by the key and is accepted, it spends and pays what one of the issued transactions does. -/
theorem C130_only_what_was_issued (H : Hashes) (hH : H.Ok) (blake224 blake256 : Bytes → Bytes) (h224 : ∀ m, (blake224 m).length = 28) (h256 : ∀ m, (blake256 m).length = 32)
    (issued : List (Builder × Ledger.TxView)) (hi : ∀ p ∈ issued, Issued H blake256 p.1 p.2) (pk : Bytes)
    (bs' : Bytes) (v' : Ledger.TxView) (hv' : read bs' = some v') (e : Env) (u : UTxO)
    (ha : Ledger.Accepts (ledgerCrypto H blake224 blake256) e u v')
    (hspent : ∃ r ∈ v'.inputs, ∃ o, u r = some o ∧ Ledger.LockedBy (ledgerCrypto H blake224 blake256) o.1 pk)
    (honly : ∀ w ∈ v'.witnesses, blake224 w.1 = blake224 pk → ∃ p ∈ issued, w ∈ p.2.witnesses)
    (hno : ∀ p ∈ issued, ∀ w ∈ p.2.witnesses, challenge H w (blake256 v'.body) = challenge H w (blake256 p.2.body) → v'.body = p.2.body) :
    ∃ p ∈ issued, v'.inputs = p.1.body.inputs.map refOf ∧ v'.outputs = p.1.body.outputs.map outOf ∧ v'.fee = p.1.body.fee.toNat ∧
      (v'.ttl = if p.1.body.ttl = 0 then none else some p.1.body.ttl.toNat) ∧
      ∀ u', Ledger.apply (ledgerCrypto H blake224 blake256) u' v' = Ledger.apply (ledgerCrypto H blake224 blake256) u' p.2 := by
  obtain ⟨r, hr, o, ho, hd, rest, e1, -⟩ := hspent
  obtain ⟨w, hw', hd', rest', e2, -⟩ := ha.unlocked r hr o ho
  rw [e1] at e2
  injection e2 with _ e2
  have e3 := (List.append_inj e2 (by show (blake224 pk).length = (blake224 w.1).length; rw [h224, h224])).1
  have e3 : blake224 pk = blake224 w.1 := e3
  obtain ⟨p, hp, hw⟩ := honly w hw' e3.symm
  obtain ⟨hf, hk, bs, hy, hv⟩ := hi p hp
  obtain ⟨g1, g2, g3, g4, -, g6⟩ := C130_altered H hH blake224 blake256 h256 p.1 bs hf hk hy p.2 hv bs' v' hv' e u ha w hw hw' (hno p hp w hw)
  exact ⟨p, hp, g1, g2, g3, g4, g6⟩

/-! ### Examples -/

theorem sampleKey_usable : Usable sampleKey := ⟨by decide +kernel, by decide +kernel, by decide +kernel⟩

/-- C130: the built transaction of C123, and other bytes with the same witness twice, which another ledger (fees by size abolished, larger transactions) accepts. -/
theorem altered_sample (H : Hashes) (hH : H.Ok) (blake224 blake256 : Bytes → Bytes) (h256 : ∀ m, (blake256 m).length = 32) :
    ∃ b bs v bs' v' e u w, Issued H blake256 b v ∧ Finishes (packageCrypto H blake256) b bs ∧ read bs = some v ∧ read bs' = some v' ∧ bs' ≠ bs ∧
      Ledger.Accepts (ledgerCrypto H blake224 blake256) e u v' ∧ w ∈ v.witnesses ∧ w ∈ v'.witnesses ∧ v'.witnesses ≠ v.witnesses ∧ v'.body = v.body ∧ v'.inputs ≠ [] ∧
      ∀ w' ∈ v'.witnesses, w' ∈ v.witnesses := by
  obtain ⟨u, h, b', k, bs, v, hf, hb, hy, hv, ha, -⟩ := asked_accepted H hH blake224 blake256 h256
  have hk : ∀ key ∈ (run (packageCrypto H blake256) (NewTxBuilder ⟨44, 155381, 16384, 1000000⟩ [sampleKey]) (askedOps sampleAddr)).xprvs, Usable key := by
    rw [asked_run]
    intro key hkey
    rw [List.mem_singleton.1 hkey]; exact sampleKey_usable
  have hone : (run (packageCrypto H blake256) (NewTxBuilder ⟨44, 155381, 16384, 1000000⟩ [sampleKey]) (askedOps sampleAddr)).xprvs.length = 1 := by rw [asked_run]; rfl
  generalize run (packageCrypto H blake256) (NewTxBuilder ⟨44, 155381, 16384, 1000000⟩ [sampleKey]) (askedOps sampleAddr) = b at *
  have hfin : Finishes (packageCrypto H blake256) b bs := ⟨h, b', k, hb, hy⟩
  obtain ⟨m, x, hm, hx, -⟩ := goodMetadata_enc _ hf.metadata
  obtain ⟨ws, body, h1, h2, h3⟩ := finish_parts _ b bs m hfin hm
  have hwl := witnessesOf_lengths _ (package_key_length H blake256) (package_sig_length H hH blake256) _ _ _ h3
  have hwf : WitnessFits ws := ⟨by rw [hwl.1]; exact hf.keys, fun w hw => by have := hwl.2 w hw; omega⟩
  have hbf : BodyFits { b.body with auxHash := auxOf (packageCrypto H blake256) b.metadata b.body.auxHash m } := by
    refine ⟨hf.inputs, hf.outputs, hf.ids, hf.addrs, ?_⟩
    show (auxOf _ _ _ _).length < _
    cases b.metadata with
    | none => exact hf.aux
    | some d => show (blake256 m).length < _; rw [h256]; decide
  have hread := Ledger.read_bytes _ ws b.valid body m x hbf hwf h1 hx
  rw [← h2] at hread
  dsimp only at hread
  rw [hv] at hread
  obtain ⟨aux, a1, rfl, a2, a3, a4⟩ := Ledger.assemble_of _ _ _ _ _ _ _ _ hread.symm
  obtain ⟨w, hw⟩ : ∃ w, w ∈ ws := by
    obtain ⟨r, hr⟩ := List.exists_mem_of_ne_nil _ ha.nonempty
    obtain ⟨o, ho⟩ := Option.isSome_iff_exists.1 (ha.exist r hr)
    obtain ⟨w', hw', -⟩ := ha.unlocked r hr o ho
    obtain ⟨w, hw, -⟩ := List.mem_map.1 hw'
    exact ⟨w, hw⟩
  have hl : ws.length = 1 := hwl.1.trans hone
  have hwf2 : WitnessFits (ws ++ ws) := ⟨by rw [List.length_append, hl]; decide, fun w hw => hwf.2 w (by simpa using hw)⟩
  have hread2 := Ledger.read_bytes _ (ws ++ ws) b.valid body m x hbf hwf2 h1 hx
  dsimp only at hread2
  rw [a2, Ledger.assemble_ok _ _ _ x body m aux a4 a3 (fun w hw => hwl.2 w (by simpa using hw)) a1] at hread2
  refine ⟨b, bs, _, _, _, ⟨0, 0, _, _, _, _⟩, u, witOf w, ⟨hf, hk, bs, hfin, hv⟩, hfin, hv, hread2, ?_,
    ⟨ha.ttl, ha.nonempty, ha.exist, by rw [Nat.zero_mul]; exact Nat.zero_le _, ha.conserved, ha.minimum, ha.network, le_refl _, ?_, ?_, ha.aux⟩,
    List.mem_map_of_mem hw, List.mem_map_of_mem (List.mem_append_left _ hw), ?_, rfl, ha.nonempty, ?_⟩
  · intro e
    rw [e, hv] at hread2
    have := congrArg (fun o : Option Ledger.TxView => (o.map fun t => t.witnesses.length)) hread2
    have : (ws.map witOf).length = ((ws ++ ws).map witOf).length := Option.some.inj this
    simp only [List.length_map, List.length_append, hl] at this
    omega
  · intro w' hw'
    refine ha.signatures w' ?_
    obtain ⟨a, h1, rfl⟩ := List.mem_map.1 hw'
    exact List.mem_map_of_mem (by simpa using h1)
  · intro r hr o ho
    obtain ⟨w', g1, g2⟩ := ha.unlocked r hr o ho
    obtain ⟨a, h1, rfl⟩ := List.mem_map.1 g1
    exact ⟨_, List.mem_map_of_mem (List.mem_append_left _ h1), g2⟩
  · intro e
    have := congrArg List.length e
    have : ((ws ++ ws).map witOf).length = (ws.map witOf).length := this
    simp only [List.length_map, List.length_append, hl] at this
    omega
  · intro w' hw'
    obtain ⟨a, h1, rfl⟩ := List.mem_map.1 hw'
    exact List.mem_map_of_mem (by simpa using h1)

/-- C130: the hypotheses of the theorem on wallets are met in the same example. -/
example (H : Hashes) (hH : H.Ok) (blake224 blake256 : Bytes → Bytes) (h256 : ∀ m, (blake256 m).length = 32) :
    ∃ b v bs' v' e u pk, Issued H blake256 b v ∧ read bs' = some v' ∧ Ledger.Accepts (ledgerCrypto H blake224 blake256) e u v' ∧ v'.witnesses ≠ v.witnesses ∧
      (∃ r ∈ v'.inputs, ∃ o, u r = some o ∧ Ledger.LockedBy (ledgerCrypto H blake224 blake256) o.1 pk) ∧
      (∀ w ∈ v'.witnesses, blake224 w.1 = blake224 pk → ∃ p ∈ [(b, v)], w ∈ p.2.witnesses) ∧
      ∀ p ∈ [(b, v)], ∀ w ∈ p.2.witnesses, challenge H w (blake256 v'.body) = challenge H w (blake256 p.2.body) → v'.body = p.2.body := by
  obtain ⟨b, bs, v, bs', v', e, u, w, hi, -, -, h3, -, ha, -, -, hne, hb, hin, hall⟩ := altered_sample H hH blake224 blake256 h256
  obtain ⟨r, hr⟩ := List.exists_mem_of_ne_nil _ hin
  obtain ⟨o, ho⟩ := Option.isSome_iff_exists.1 (ha.exist r hr)
  obtain ⟨w', -, hl⟩ := ha.unlocked r hr o ho
  refine ⟨b, v, bs', v', e, u, w'.1, hi, h3, ha, hne, ⟨r, hr, o, ho, hl⟩, fun w hw _ => ⟨_, List.mem_singleton.2 rfl, hall w hw⟩, fun p hp w _ _ => ?_⟩
  rw [List.mem_singleton.1 hp]; exact hb

/-- C130: the scalar 0 (or any multiple of the order) must be excluded: with it, a signature is valid for every message. -/
theorem C130_zero_scalar (H : Hashes) (hH : H.Ok) (key : Bytes) (hk : key.length = 96) (hs : leNat (key.take 32) < 2 ^ 255) (h0 : leNat (key.take 32) % L = 0)
    (m m' sig pk : Bytes) (h : Sign H key m = .ok sig) (hpk : MakePublicKey key = .ok pk) : Valid H.sha512 pk m' sig := by
  obtain ⟨pk1, -, p1, -, -, -, p2⟩ := C36_public_key key hk hs
  rw [hpk] at p1
  obtain rfl := Res.ok.inj p1
  obtain ⟨_, _, a1, a2, av⟩ := C37_signature_valid H hH key hk hs m
  rw [h] at a1
  obtain rfl := Res.ok.inj a1
  rw [hpk] at a2
  obtain rfl := Res.ok.inj a2
  obtain ⟨R, A, r1, q1, e1⟩ := av.equation
  obtain rfl := (C51_encoding_unique _).2 _ _ p2 q1
  have hz : leNat (key.take 32) • B = 0 := by
    have : leNat (key.take 32) • B = 0 • B := by rw [C42_order.2, h0]; decide
    rw [this, zero_nsmul]
  refine ⟨av.size, av.small, R, _, r1, p2, ?_⟩
  rw [e1, hz, smul_zero, smul_zero]

end Cardano.Props
