import Verif.Props.Order
import Verif.Props.Byron
/-!
# Properties C105 to C107: payments to addresses, and keys, that do not fit
-/
set_option autoImplicit false

namespace Cardano.Props
open Cbor TxSpec Transaction TxBuilder Addr Bip32 Spec
open Ledger (read seen refOf outOf witOf Env UTxO OutputAddress readAux)

/-- What the ledger reads in the bytes, if it can read them, with the witnesses, and that all outputs have Shelley addresses. -/
theorem finish_seen (H : Hashes) (hH : H.Ok) (blake256 : Bytes → Bytes) (h256 : ∀ m, (blake256 m).length = 32)
    (b : Builder) (bs : Bytes) (hf : BuilderFits b) (hy : Finishes (packageCrypto H blake256) b bs) (v : Ledger.TxView) (hv : read bs = some v) :
    ∃ ws, v.witnesses = ws.map witOf ∧ witnessesOf (packageCrypto H blake256) (blake256 v.body) b.xprvs = .ok ws ∧
      v.inputs = b.body.inputs.map refOf ∧ ∀ o ∈ b.body.outputs, OutputAddress (Addr.bytes o.address) := by
  obtain ⟨m, x, hm, hx, -⟩ := goodMetadata_enc _ hf.metadata
  obtain ⟨ws, body, h1, h2, h3⟩ := finish_parts _ b bs m hy hm
  have hwl := witnessesOf_lengths _ (package_key_length H blake256) (package_sig_length H hH blake256) _ _ _ h3
  have hwf : WitnessFits ws := ⟨by rw [hwl.1]; exact hf.keys, fun w hw => by have := hwl.2 w hw; omega⟩
  have hbf : BodyFits { b.body with auxHash := auxOf (packageCrypto H blake256) b.metadata b.body.auxHash m } := by
    refine ⟨hf.inputs, hf.outputs, hf.ids, hf.addrs, ?_⟩
    show (auxOf _ _ _ _).length < _
    cases b.metadata with
    | none => exact hf.aux
    | some d => show (blake256 m).length < _; rw [h256]; decide
  have hread := Ledger.read_bytes _ ws b.valid body m x hbf hwf h1 hx
  rw [← h2] at hread
  dsimp only at hread
  rw [hv] at hread
  obtain ⟨aux, -, rfl, -, ho, -⟩ := Ledger.assemble_of _ _ _ _ _ _ _ _ hread.symm
  exact ⟨ws, rfl, h3, rfl, ho⟩

/-! ### C105 -/

/-- The request pays to the address: as an output, or as the change. -/
def PaysInto (a : Address) : Op → Prop
  | .addOutputs l => ∃ o ∈ l, o.address = a
  | .addChange c => c = a
  | _ => False

/-- What was asked to be paid is among the outputs, whatever else was called. -/
theorem paysInto_output (C : Crypto) (p : Protocol) (ks : List Bytes) (ops : List Op) (a : Address) (op : Op) (hop : op ∈ ops) (ha : PaysInto a op) :
    ∃ o ∈ (run C (NewTxBuilder p ks) ops).body.outputs, o.address = a := by
  have h := (C29_history C ops (NewTxBuilder p ks)).2.1
  have : a ∈ ops.flatMap outAddrsOf := by
    refine List.mem_flatMap.2 ⟨op, hop, ?_⟩
    cases op with
    | addOutputs l =>
      obtain ⟨o, ho, e⟩ := ha
      exact List.mem_map.2 ⟨o, ho, e⟩
    | addChange c => exact List.mem_singleton.2 (Eq.symm ha)
    | _ => exact ha.elim
  have hm : a ∈ (run C (NewTxBuilder p ks) ops).body.outputs.map (·.address) := by
    rw [h]; exact List.mem_append_right _ this
  obtain ⟨o, ho, e⟩ := List.mem_map.1 hm
  exact ⟨o, ho, e⟩

/-- The CDDL of outputs, whatever the addresses: the field 1 of the body is a list of lists that begin with a byte string
(`transaction_output = [address, amount]`, `address = bytes`). -/
def OutputsAreAddressed (bs : Bytes) : Prop :=
  ∃ kvs w v x ps outs, parse bs = some (.array [.map kvs, w, v, x]) ∧ Ledger.pairs kvs = some ps ∧ ps.lookup 1 = some (.array outs) ∧
    ∀ o ∈ outs, ∃ a rest, o = .array (.bytes a :: rest)

/-- The bytes of a finished transaction as an item. -/
theorem finish_item (H : Hashes) (hH : H.Ok) (blake256 : Bytes → Bytes) (h256 : ∀ m, (blake256 m).length = 32)
    (b : Builder) (bs : Bytes) (hf : BuilderFits b) (hy : Finishes (packageCrypto H blake256) b bs) :
    ∃ aux ws x, parse bs = some (txItem { b.body with auxHash := aux } ws b.valid x) := by
  obtain ⟨m, x, hm, hx, -⟩ := goodMetadata_enc _ hf.metadata
  obtain ⟨ws, body, h1, h2, h3⟩ := finish_parts _ b bs m hy hm
  have hwl := witnessesOf_lengths _ (package_key_length H blake256) (package_sig_length H hH blake256) _ _ _ h3
  have hwf : WitnessFits ws := ⟨by rw [hwl.1]; exact hf.keys, fun w hw => by have := hwl.2 w hw; omega⟩
  have hbf : BodyFits { b.body with auxHash := auxOf (packageCrypto H blake256) b.metadata b.body.auxHash m } := by
    refine ⟨hf.inputs, hf.outputs, hf.ids, hf.addrs, ?_⟩
    show (auxOf _ _ _ _).length < _
    cases b.metadata with
    | none => exact hf.aux
    | some d => show (blake256 m).length < _; rw [h256]; decide
  have hmt : marshalTx ⟨{ b.body with auxHash := auxOf (packageCrypto H blake256) b.metadata b.body.auxHash m }, ws, b.valid, b.metadata⟩ 0 = .ok bs := by
    rw [h2]
    unfold marshalTx
    simp only [h1, hm, Res.ok_bind]
    have : encHead 0x80 (UInt64.ofNat 4) = [0x84] := by decide
    show Res.ok (encArray _) = _
    simp only [encArray, List.length_cons, List.length_nil, this, List.flatten_cons, List.flatten_nil]
    simp
  exact ⟨_, ws, x, (tx_enc _ 0 bs hbf hwf hmt m (hm _) x hx).parse⟩

/-- **C105 is false for Byron addresses.** If any of the calls pays to a Byron address, as output or as change, then whatever else was called and whatever the
address, the bytes of the transaction have an output whose address is not a byte string, so that they do not follow the CDDL; and no ledger state accepts them. -/
theorem C105_byron_rejected (H : Hashes) (hH : H.Ok) (blake224 blake256 : Bytes → Bytes) (h256 : ∀ m, (blake256 m).length = 32)
    (p : Protocol) (ks : List Bytes) (ops : List Op) (a : ByronAddress) (op : Op) (hop : op ∈ ops) (ha : PaysInto (.byron a) op) (bs : Bytes)
    (hf : BuilderFits (run (packageCrypto H blake256) (NewTxBuilder p ks) ops))
    (hy : Finishes (packageCrypto H blake256) (run (packageCrypto H blake256) (NewTxBuilder p ks) ops) bs) :
    ¬ OutputsAreAddressed bs ∧ ∀ e u, ¬ Ledger.Valid (ledgerCrypto H blake224 blake256) e u bs := by
  obtain ⟨o, ho, e⟩ := paysInto_output (packageCrypto H blake256) p ks ops _ op hop ha
  generalize run (packageCrypto H blake256) (NewTxBuilder p ks) ops = b at *
  refine ⟨?_, ?_⟩
  · rintro ⟨kvs, w, v, x, ps, outs, hp, hps, hl, hall⟩
    obtain ⟨aux, ws, y, hi⟩ := finish_item H hH blake256 h256 b bs hf hy
    rw [hp] at hi
    have hi := Option.some.inj hi
    unfold txItem at hi
    injection hi with hi
    injection hi with hi _
    have hfl := Ledger.fieldsOf_body { b.body with auxHash := aux }
    rw [← hi] at hfl
    unfold Ledger.fieldsOf at hfl
    dsimp only at hfl
    rw [hps] at hfl
    dsimp only at hfl
    split at hfl
    · have hfl := Option.some.inj hfl
      rw [hfl, (Ledger.lookup_body _).2.1] at hl
      have hl := Option.some.inj hl
      injection hl with hl
      obtain ⟨x, rest, hx⟩ := hall (outputItem o) (by rw [← hl]; exact List.mem_map.2 ⟨o, ho, rfl⟩)
      unfold outputItem at hx
      rw [e] at hx
      unfold addressItem at hx
      injection hx with hx
      injection hx with hx _
      cases hx
    · cases hfl
  · rintro en u ⟨v, hv, -⟩
    obtain ⟨ws, -, -, -, hall⟩ := finish_seen H hH blake256 h256 b bs hf hy v hv
    have := hall o ho
    have e1 := Ledger.addressItem_bytes _ this
    rw [e] at e1
    cases e1

/-- **C105 for reward addresses.** If any of the calls pays to a reward address, `Build` reports an error. -/
theorem C105_reward_reported (C : Crypto) (p : Protocol) (ks : List Bytes) (ops : List Op) (n : NetworkInfo) (c : Cred) (op : Op) (hop : op ∈ ops)
    (ha : PaysInto (.reward n c) op) : ∀ h, (Build C (run C (NewTxBuilder p ks) ops)).1 ≠ .ok h := by
  obtain ⟨o, ho, e⟩ := paysInto_output C p ks ops _ op hop ha
  generalize run C (NewTxBuilder p ks) ops = b at *
  intro h hb
  obtain ⟨body, bb, ws, h1, h2, -⟩ := build_ok C b (Build C b).2 h (by rw [← hb])
  exact marshalBody_reward body o (by rw [(calcAux_outputs C (tx b) b.clock body h1).2.1]; exact ho) n c e _ h2

/-- **C105, what remains.** If no address is a Byron or a reward address, nothing is reported: metadata and keys being what they should, `Build` and `Bytes`
return a transaction whose outputs begin with byte strings. -/
theorem C105_others_partial (H : Hashes) (hH : H.Ok) (blake256 : Bytes → Bytes) (h256 : ∀ m, (blake256 m).length = 32)
    (b : Builder) (hf : BuilderFits b) (hk : ∀ k ∈ b.xprvs, k.length = 96 ∧ leNat (k.take 32) < 2 ^ 255)
    (ho : ∀ o ∈ b.body.outputs, (∀ a, o.address ≠ .byron a) ∧ ∀ n c, o.address ≠ .reward n c) :
    ∃ bs, Finishes (packageCrypto H blake256) b bs ∧ OutputsAreAddressed bs := by
  obtain ⟨bs, hy⟩ := finish_succeeds H hH blake256 b hf.metadata (by
    intro o h
    obtain ⟨h1, h2⟩ := ho o h
    cases ha : o.address with
    | byron a => exact absurd ha (h1 a)
    | reward n c => exact absurd ha (h2 n c)
    | _ => exact ⟨_, rfl⟩) hk
  obtain ⟨aux, ws, y, hi⟩ := finish_item H hH blake256 h256 b bs hf hy
  refine ⟨bs, hy, _, _, _, _, _, _, hi, ?_, (Ledger.lookup_body { b.body with auxHash := aux }).2.1, ?_⟩
  · have hfl := Ledger.fieldsOf_body { b.body with auxHash := aux }
    unfold bodyItem Ledger.fieldsOf at hfl
    dsimp only at hfl
    split at hfl
    · rename_i ps hps
      split at hfl
      · rw [hps]; exact hfl
      · cases hfl
    · cases hfl
  · intro x hx
    obtain ⟨o, h, rfl⟩ := List.mem_map.1 hx
    obtain ⟨h1, h2⟩ := ho o h
    unfold outputItem
    cases ha : o.address with
    | byron a => exact absurd ha (h1 a)
    | _ => exact ⟨_, _, rfl⟩

/-! ### C106 -/

/-- What `Bytes` makes of a credential that is not 28 bytes long: cut, or filled with zeros. -/
def fitted (l : Bytes) : Bytes := if 28 ≤ l.length then l.take 28 else l ++ List.replicate (28 - l.length) 0

theorem copyZ_fitted (l : Bytes) : copyZ 28 l = fitted l := by
  unfold copyZ fitted
  split
  · rw [List.take_append_of_le_length (by omega)]
  · rw [List.take_append, List.take_of_length_le (by omega), List.take_replicate]
    congr 2; omega

/-- **C106 is false.** No length of a credential is reported: longer ones are cut and shorter ones filled with zeros in base, enterprise and reward addresses;
in pointer addresses the credential is written as it is. -/
theorem C106_bytes (n : NetworkInfo) (p s : Cred) (ptr : StakePointer) :
    (∃ h, Addr.bytes (.base n p s) = h :: (fitted p.payload ++ fitted s.payload)) ∧ (∃ h, Addr.bytes (.enterprise n p) = h :: fitted p.payload) ∧
    (∃ h, Addr.bytes (.reward n p) = h :: fitted p.payload) ∧
    ∃ h, Addr.bytes (.pointer n p ptr) = h :: (p.payload ++ (VariableNatEncode ptr.slot ++ VariableNatEncode ptr.txIndex ++ VariableNatEncode ptr.certIndex)) := by
  simp only [Addr.bytes, copyZ_fitted, List.cons_append, List.append_assoc]
  exact ⟨⟨_, rfl⟩, ⟨_, rfl⟩, ⟨_, rfl⟩, ⟨_, rfl⟩⟩

/-- **C106: different credentials, the same address.** Bytes after the 28th, and zeros at the end of a shorter credential, make no difference to the bytes and the
text of base, enterprise and reward addresses. -/
theorem C106_collisions (n : NetworkInfo) (k : UInt8) (l more : Bytes) (hm : 28 ≤ l.length ∨ l.length + more.length ≤ 28 ∧ ∀ x ∈ more, x = 0) :
    Addr.bytes (.enterprise n ⟨k, l ++ more⟩) = Addr.bytes (.enterprise n ⟨k, l⟩) ∧ Addr.string (.enterprise n ⟨k, l ++ more⟩) = Addr.string (.enterprise n ⟨k, l⟩) ∧
    Addr.bytes (.reward n ⟨k, l ++ more⟩) = Addr.bytes (.reward n ⟨k, l⟩) ∧ Addr.string (.reward n ⟨k, l ++ more⟩) = Addr.string (.reward n ⟨k, l⟩) ∧
    ∀ c : Cred, Addr.bytes (.base n ⟨k, l ++ more⟩ c) = Addr.bytes (.base n ⟨k, l⟩ c) ∧ Addr.string (.base n ⟨k, l ++ more⟩ c) = Addr.string (.base n ⟨k, l⟩ c) ∧
      Addr.bytes (.base n c ⟨k, l ++ more⟩) = Addr.bytes (.base n c ⟨k, l⟩) ∧ Addr.string (.base n c ⟨k, l ++ more⟩) = Addr.string (.base n c ⟨k, l⟩) := by
  have key : copyZ 28 (l ++ more) = copyZ 28 l := by
    rw [copyZ_fitted, copyZ_fitted]
    unfold fitted
    rcases hm with h | ⟨h, hz⟩
    · rw [if_pos (by rw [List.length_append]; omega), if_pos h, List.take_append_of_le_length h]
    · rw [List.eq_replicate_of_mem hz]
      by_cases c : 28 ≤ l.length
      · have : more.length = 0 := by omega
        rw [this, List.replicate_zero, List.append_nil]
      · rw [if_neg c]
        split
        · rename_i c2
          rw [List.length_append, List.length_replicate] at c2
          rw [List.take_of_length_le (by rw [List.length_append, List.length_replicate]; omega)]
          congr 2; omega
        · rw [List.append_assoc, List.replicate_append_replicate]
          congr 2
          rw [List.length_append, List.length_replicate]; omega
  have e1 : Addr.bytes (.enterprise n ⟨k, l ++ more⟩) = Addr.bytes (.enterprise n ⟨k, l⟩) := by simp only [Addr.bytes, key]
  have e2 : Addr.bytes (.reward n ⟨k, l ++ more⟩) = Addr.bytes (.reward n ⟨k, l⟩) := by simp only [Addr.bytes, key]
  have e3 : ∀ c : Cred, Addr.bytes (.base n ⟨k, l ++ more⟩ c) = Addr.bytes (.base n ⟨k, l⟩ c) := fun c => by simp only [Addr.bytes, key]
  have e4 : ∀ c : Cred, Addr.bytes (.base n c ⟨k, l ++ more⟩) = Addr.bytes (.base n c ⟨k, l⟩) := fun c => by simp only [Addr.bytes, key]
  refine ⟨e1, ?_, e2, ?_, fun c => ⟨e3 c, ?_, e4 c, ?_⟩⟩
  · show orEmpty (Bech32.Encode _ (Addr.bytes _)) = orEmpty (Bech32.Encode _ (Addr.bytes _)); rw [e1]; rfl
  · show orEmpty (Bech32.Encode _ (Addr.bytes _)) = orEmpty (Bech32.Encode _ (Addr.bytes _)); rw [e2]; rfl
  · show orEmpty (Bech32.Encode _ (Addr.bytes _)) = orEmpty (Bech32.Encode _ (Addr.bytes _)); rw [e3]; rfl
  · show orEmpty (Bech32.Encode _ (Addr.bytes _)) = orEmpty (Bech32.Encode _ (Addr.bytes _)); rw [e4]; rfl

/-- The credentials of an address. -/
def credentials : Address → List Bytes
  | .base _ p s => [p.payload, s.payload]
  | .enterprise _ p => [p.payload]
  | .pointer _ p _ => [p.payload]
  | .reward _ s => [s.payload]
  | .byron _ => []

theorem readAddrCred_length (data spare : Bytes) (h : UInt8) (bit pos : Nat) (c : Cred) (e : readAddrCred data spare h bit pos = .ok c) : c.payload.length = 28 := by
  unfold readAddrCred at e
  split at e
  · cases e
  · rename_i hl
    have : (((data ++ spare).drop pos).take 28).length = 28 := by rw [List.length_take, List.length_drop, List.length_append]; omega
    dsimp only at e
    split at e <;> injection e with e <;> subst e <;> exact this

/-- **C106: not read back.** Every address that is read has credentials of 28 bytes; so an address with another length is never read back as it was, from its own
bytes or from any others. -/
theorem C106_not_read_back (strict : Bool) (data spare : Bytes) (a : Address) (h : NewAddressFromBytes strict data spare = .ok a) : ∀ c ∈ credentials a, c.length = 28 := by
  unfold NewAddressFromBytes at h
  split at h
  · cases h
  · dsimp only at h
    split at h
    · obtain ⟨b, -, h⟩ := bind_ok h
      injection h with h; subst h
      intro c hc; cases hc
    · split at h
      · obtain ⟨p, e1, h⟩ := bind_ok h
        obtain ⟨s, e2, h⟩ := bind_ok h
        injection h with h; subst h
        intro c hc
        rcases List.mem_cons.1 hc with rfl | hc
        · exact readAddrCred_length _ _ _ _ _ _ e1
        · rw [List.mem_singleton.1 hc]; exact readAddrCred_length _ _ _ _ _ _ e2
      · split at h
        · split at h
          · cases h
          · obtain ⟨p, e1, h⟩ := bind_ok h
            obtain ⟨_, -, h⟩ := bind_ok h
            obtain ⟨_, -, h⟩ := bind_ok h
            obtain ⟨_, -, h⟩ := bind_ok h
            split at h
            · cases h
            · injection h with h; subst h
              intro c hc
              rw [List.mem_singleton.1 hc]; exact readAddrCred_length _ _ _ _ _ _ e1
        · split at h
          · split at h
            · cases h
            · split at h
              · cases h
              · obtain ⟨p, e1, h⟩ := bind_ok h
                injection h with h; subst h
                intro c hc
                rw [List.mem_singleton.1 hc]; exact readAddrCred_length _ _ _ _ _ _ e1
          · split at h
            · split at h
              · cases h
              · split at h
                · cases h
                · obtain ⟨p, e1, h⟩ := bind_ok h
                  injection h with h; subst h
                  intro c hc
                  rw [List.mem_singleton.1 hc]; exact readAddrCred_length _ _ _ _ _ _ e1
            · cases h

/-! ### C107 -/

/-- **C107.** If the ledger accepts what was built, then every output spent is locked by the public key of one of the keys given to the builder, at its making or with
`Sign`: whatever was called, in whatever order, in all states of the ledger. -/
theorem C107_only_own_outputs (H : Hashes) (hH : H.Ok) (blake224 blake256 : Bytes → Bytes) (h256 : ∀ m, (blake256 m).length = 32)
    (p : Protocol) (ks : List Bytes) (ops : List Op) (u : UTxO) (e : Env) (bs : Bytes)
    (hf : BuilderFits (run (packageCrypto H blake256) (NewTxBuilder p ks) ops))
    (hy : Finishes (packageCrypto H blake256) (run (packageCrypto H blake256) (NewTxBuilder p ks) ops) bs)
    (ha : Ledger.Valid (ledgerCrypto H blake224 blake256) e u bs) :
    ∀ op ∈ ops, ∀ l, op = .addInputs l → ∀ i ∈ l, ∃ a amount, u (refOf i) = some (a, amount) ∧
      ∃ key, (key ∈ ks ∨ .sign key ∈ ops) ∧ ∃ pk, (packageCrypto H blake256).publicKey key = .ok pk ∧ Ledger.LockedBy (ledgerCrypto H blake224 blake256) a pk := by
  intro op hop l hl i hi
  obtain ⟨v, hv, ha⟩ := ha
  obtain ⟨ws, e1, e2, e3, -⟩ := finish_seen H hH blake256 h256 _ bs hf hy v hv
  obtain ⟨g1, -, -, g4, -⟩ := C29_history (packageCrypto H blake256) ops (NewTxBuilder p ks)
  have hmem : refOf i ∈ v.inputs := by
    rw [e3, g1]
    refine List.mem_map.2 ⟨i, List.mem_append_right _ (List.mem_flatMap.2 ⟨op, hop, ?_⟩), rfl⟩
    rw [hl]; exact hi
  obtain ⟨⟨a, amount⟩, ho⟩ := Option.isSome_iff_exists.1 (ha.exist _ hmem)
  refine ⟨a, amount, ho, ?_⟩
  obtain ⟨w, hw, hlock⟩ := ha.unlocked _ hmem _ ho
  rw [e1] at hw
  obtain ⟨w', hw', rfl⟩ := List.mem_map.1 hw
  have h2 := witnessesOf_ok _ _ _ ws e2
  obtain ⟨key, hk, hpk, -⟩ : ∃ key ∈ (run (packageCrypto H blake256) (NewTxBuilder p ks) ops).xprvs,
      (packageCrypto H blake256).publicKey key = .ok w'.vkey ∧ (packageCrypto H blake256).sign key (blake256 v.body) = .ok w'.signature := by
    clear e1 hlock hw e2
    generalize (run (packageCrypto H blake256) (NewTxBuilder p ks) ops).xprvs = xs at h2
    induction h2 with
    | nil => cases hw'
    | cons h _ ih =>
      rcases List.mem_cons.1 hw' with rfl | hw'
      · exact ⟨_, List.mem_cons_self, h⟩
      · obtain ⟨k, hk, hh⟩ := ih hw'
        exact ⟨k, List.mem_cons_of_mem _ hk, hh⟩
  refine ⟨key, ?_, _, hpk, hlock⟩
  rw [g4] at hk
  rcases List.mem_append.1 hk with hk | hk
  · exact .inl hk
  · obtain ⟨op', hop', hk⟩ := List.mem_flatMap.1 hk
    cases op' with
    | sign k => rw [show key = k from List.mem_singleton.1 hk]; exact .inr hop'
    | _ => cases hk

/-- **C107: what others own.** An input whose output is locked by none of the keys, in particular one at a script address, at a Byron address or at a reward address,
leads to rejection. -/
theorem C107_others_rejected (H : Hashes) (hH : H.Ok) (blake224 blake256 : Bytes → Bytes) (h256 : ∀ m, (blake256 m).length = 32)
    (p : Protocol) (ks : List Bytes) (ops : List Op) (u : UTxO) (e : Env) (bs : Bytes)
    (hf : BuilderFits (run (packageCrypto H blake256) (NewTxBuilder p ks) ops))
    (hy : Finishes (packageCrypto H blake256) (run (packageCrypto H blake256) (NewTxBuilder p ks) ops) bs)
    (l : List TxInput) (hop : .addInputs l ∈ ops) (i : TxInput) (hi : i ∈ l) (a : Bytes) (amount : Nat) (hu : u (refOf i) = some (a, amount))
    (hno : (∀ key pk, key ∈ ks ∨ .sign key ∈ ops → (packageCrypto H blake256).publicKey key = .ok pk → ¬ ∃ h rest, a = h :: (blake224 pk ++ rest)) ∨
      (∃ n c, c.kind = 1 ∧ (a = Addr.bytes (.enterprise n c) ∨ (∃ s : Cred, s.kind.toNat < 2 ∧ a = Addr.bytes (.base n c s)) ∨ ∃ ptr, a = Addr.bytes (.pointer n c ptr))) ∨
      (∃ b, a = Addr.bytes (.byron b)) ∨ ∃ n c, a = Addr.bytes (.reward n c)) :
    ¬ Ledger.Valid (ledgerCrypto H blake224 blake256) e u bs := by
  intro ha
  obtain ⟨a', am, h1, key, hk, pk, hpk, h, rest, h2, h3⟩ := C107_only_own_outputs H hH blake224 blake256 h256 p ks ops u e bs hf hy ha _ hop l rfl i hi
  rw [hu] at h1
  have h1 := Option.some.inj h1
  injection h1 with h1 _
  subst h1
  rcases hno with hno | ⟨n, c, hc, hno⟩ | ⟨b, hno⟩ | ⟨n, c, hno⟩
  · exact hno key pk hk hpk ⟨h, rest, h2⟩
  · have k1 : ∀ z : UInt8, ((0x60 : UInt8) ||| (1 : UInt8) <<< 4 ||| (z &&& 0xf)).toNat / 16 = 7 := forall_byte (by decide +kernel)
    have k2 : ∀ z : UInt8, ((0x40 : UInt8) ||| (1 : UInt8) <<< 4 ||| (z &&& 0xF)).toNat / 16 = 5 := forall_byte (by decide +kernel)
    have k3 : ∀ z : UInt8, ∀ j : Fin 2, ((1 : UInt8) <<< 4 ||| (UInt8.ofNat j.val) <<< 5 ||| (z &&& 0xf)).toNat / 16 = 1 + 2 * j.val := forall_byte (by decide +kernel)
    rcases hno with e | ⟨s, hs, e⟩ | ⟨ptr, e⟩
    · rw [h2] at e
      injection e with e _
      rw [hc] at e
      rw [e, k1] at h3
      omega
    · rw [h2] at e
      injection e with e _
      rw [hc] at e
      have := k3 n.networkId ⟨s.kind.toNat, hs⟩
      simp only [UInt8.ofNat_toNat] at this
      rw [e, this] at h3
      omega
    · rw [h2] at e
      injection e with e _
      rw [hc] at e
      rw [e, k2] at h3
      omega
  · have : ∃ r, Byron.bytes b = 0x82 :: r := by
      unfold Byron.bytes encArray
      dsimp only
      simp only [List.length_cons, List.length_nil]
      rw [show encHead 0x80 (UInt64.ofNat (0 + 1 + 1)) = [0x82] by decide]
      exact ⟨_, rfl⟩
    obtain ⟨r, hr⟩ := this
    rw [h2] at hno
    have hno : h :: _ = Byron.bytes b := hno
    rw [hr] at hno
    injection hno with e _
    rw [e] at h3
    revert h3
    decide
  · rw [h2] at hno
    injection hno with e _
    have k1 : ∀ z : UInt8, 14 ≤ ((0xe0 : UInt8) ||| z).toNat / 16 := forall_byte (by decide +kernel)
    rw [UInt8.or_assoc] at e
    have := k1 (c.kind <<< 4 ||| (n.networkId &&& 0xf))
    rw [← e] at this
    omega

/-- **C106: what is paid to such an address can be spent only with a key whose hash is what `Bytes` made of the credential.** In particular what is paid to an address
made from a public key (32 bytes, or 64 with the chain code) instead of its hash can be spent with a key only if the hash of its public key is the first 28 bytes of
that public key. -/
theorem C106_spendable (H : Hashes) (hH : H.Ok) (blake224 blake256 : Bytes → Bytes) (h224 : ∀ m, (blake224 m).length = 28) (h256 : ∀ m, (blake256 m).length = 32)
    (p : Protocol) (ks : List Bytes) (ops : List Op) (u : UTxO) (e : Env) (bs : Bytes)
    (hf : BuilderFits (run (packageCrypto H blake256) (NewTxBuilder p ks) ops))
    (hy : Finishes (packageCrypto H blake256) (run (packageCrypto H blake256) (NewTxBuilder p ks) ops) bs)
    (ha : Ledger.Valid (ledgerCrypto H blake224 blake256) e u bs)
    (l : List TxInput) (hop : .addInputs l ∈ ops) (i : TxInput) (hi : i ∈ l) (n : NetworkInfo) (c : Cred) (amount : Nat) (a : Address)
    (hu : u (refOf i) = some (Addr.bytes a, amount)) (hadr : a = .enterprise n c ∨ (∃ s, a = .base n c s) ∨ ∃ ptr, a = .pointer n c ptr ∧ 28 ≤ c.payload.length) :
    ∃ key, (key ∈ ks ∨ .sign key ∈ ops) ∧ ∃ pk, (packageCrypto H blake256).publicKey key = .ok pk ∧ blake224 pk = fitted c.payload := by
  obtain ⟨a', am, h1, key, hk, pk, hpk, h, rest, h2, h3⟩ := C107_only_own_outputs H hH blake224 blake256 h256 p ks ops u e bs hf hy ha _ hop l rfl i hi
  rw [hu] at h1
  have h1 := Option.some.inj h1
  injection h1 with h1 _
  subst h1
  refine ⟨key, hk, pk, hpk, ?_⟩
  have hl : (fitted c.payload).length = 28 := by rw [← copyZ_fitted, copyZ_length]
  have fin : ∀ r, blake224 pk ++ rest = fitted c.payload ++ r → blake224 pk = fitted c.payload := fun r e =>
    (List.append_inj e (by rw [h224, hl])).1
  have h2 : _ = h :: (blake224 pk ++ rest) := h2
  rcases hadr with rfl | ⟨s, rfl⟩ | ⟨ptr, rfl, hlen⟩
  · obtain ⟨h', e'⟩ := (C106_bytes n c c ⟨0, 0, 0⟩).2.1
    rw [e'] at h2
    injection h2 with _ h2
    exact fin [] (by rw [List.append_nil]; exact h2.symm)
  · obtain ⟨h', e'⟩ := (C106_bytes n c s ⟨0, 0, 0⟩).1
    rw [e'] at h2
    injection h2 with _ h2
    exact fin _ h2.symm
  · obtain ⟨h', e'⟩ := (C106_bytes n c c ptr).2.2.2
    rw [e'] at h2
    injection h2 with _ h2
    have : c.payload = fitted c.payload ++ c.payload.drop 28 := by
      unfold fitted
      rw [if_pos hlen, List.take_append_drop]
    rw [this, List.append_assoc] at h2
    exact fin _ h2.symm

/-! ### Examples -/

/-- C105, first theorem: a payment to a Byron address, and change to one. -/
example (H : Hashes) (hH : H.Ok) (blake256 : Bytes → Bytes) :
    ∃ (p : Protocol) (ops : List Op) (a : ByronAddress) (bs : Bytes), ByronOk a ∧ PaysInto (.byron a) (.addOutputs [⟨.byron a, 2000000⟩]) ∧
      PaysInto (.byron a) (.addChange (.byron a)) ∧ .addOutputs [⟨.byron a, 2000000⟩] ∈ ops ∧ .addChange (.byron a) ∈ ops ∧
      BuilderFits (run (packageCrypto H blake256) (NewTxBuilder p [sampleKey]) ops) ∧ Finishes (packageCrypto H blake256) (run (packageCrypto H blake256) (NewTxBuilder p [sampleKey]) ops) bs := by
  let a : ByronAddress := ⟨List.replicate 28 0xab, ⟨[1, 2, 3], some 42⟩, 0⟩
  let ops : List Op := [.addInputs [⟨List.replicate 32 7, 0, 10000000⟩], .addOutputs [⟨.byron a, 2000000⟩], .addChange (.byron a)]
  let p : Protocol := ⟨44, 155381, 16384, 1000000⟩
  have hout : ∀ o ∈ (run (packageCrypto H blake256) (NewTxBuilder p [sampleKey]) ops).body.outputs, o.address = .byron a := by
    intro o h
    have h : o ∈ [(⟨.byron a, 2000000⟩ : TxOutput), ⟨.byron a, _⟩] := h
    rcases List.mem_cons.1 h with h | h
    · rw [h]
    · rw [List.mem_singleton.1 h]
  obtain ⟨bs, hy⟩ := finish_succeeds H hH blake256 (run (packageCrypto H blake256) (NewTxBuilder p [sampleKey]) ops) (.inl rfl)
    (fun o h => ⟨_, by rw [hout o h]; rfl⟩) (by intro k h; rw [List.mem_singleton.1 (show k ∈ [sampleKey] from h)]; exact sampleKey_ok)
  refine ⟨p, ops, a, bs, ⟨rfl, rfl, by decide⟩, ⟨_, List.mem_singleton.2 rfl, rfl⟩, rfl, by simp [ops], by simp [ops], ?_, hy⟩
  refine ⟨(by decide : 1 < 2 ^ 63), (by decide : 2 < 2 ^ 63), (by decide : 1 < 2 ^ 63), ?_, ?_, (by decide : 0 < 2 ^ 63), .inl rfl⟩
  · intro i h
    rw [List.mem_singleton.1 (show i ∈ [(⟨List.replicate 32 7, 0, 10000000⟩ : TxInput)] from h)]
    exact (by decide : (List.replicate 32 (7 : UInt8)).length < 2 ^ 63)
  · intro o h
    rw [hout o h]
    exact ⟨(by decide : 28 < 2 ^ 62), (by decide : 3 < 2 ^ 62)⟩

/-- C105, second theorem: change to a reward address. -/
example (n : NetworkInfo) (c : Cred) : PaysInto (.reward n c) (.addChange (.reward n c)) := rfl

/-- The calls of the examples. -/
def sampleOps : List Op := [.addInputs [⟨List.replicate 32 7, 0, 10000000⟩], .addOutputs [⟨.base MainNet goldenPayment goldenStake, 5000000⟩], .setTTL 0, .setMetadata none, .addChange sampleAddr]

/-- C105, third theorem, and C107: the session of C77, accepted by the ledger. -/
theorem sampleOps_accepted (H : Hashes) (hH : H.Ok) (blake224 blake256 : Bytes → Bytes) (h256 : ∀ m, (blake256 m).length = 32) :
    ∃ p e bs pk, (packageCrypto H blake256).publicKey sampleKey = .ok pk ∧ BuilderFits (run (packageCrypto H blake256) (NewTxBuilder p [sampleKey]) sampleOps) ∧
      Finishes (packageCrypto H blake256) (run (packageCrypto H blake256) (NewTxBuilder p [sampleKey]) sampleOps) bs ∧
      Ledger.Valid (ledgerCrypto H blake224 blake256) e (sampleUTxO blake224 pk 10000000) bs := by
  obtain ⟨pk, bs, hpk, ⟨t, ⟨h, b', k, e1, e2, e3⟩, -⟩, hv⟩ := sample_accepted H hH blake224 blake256 h256
  refine ⟨⟨44, 155381, 16384, 1000000⟩, _, bs, pk, hpk, ?_, ⟨h, b', k, e1, by rw [e2]; exact e3⟩, hv⟩
  exact (order_ok H hH blake256 (AddChangeIfNeeded (packageCrypto H blake256) orderBuilder sampleAddr) _ (order_change H blake256)
    (by intro i h; rw [List.mem_singleton.1 h]; decide) (by decide : 1 < 100) (by decide : 2 < 100)
    (by
      intro o h
      simp only [List.mem_cons, List.not_mem_nil, or_false] at h
      rcases h with h | h <;> rw [h]
      · exact .inl rfl
      · exact .inr rfl) rfl rfl (.inl rfl)).1

example (H : Hashes) (hH : H.Ok) (blake224 blake256 : Bytes → Bytes) (h256 : ∀ m, (blake256 m).length = 32) :
    ∃ p e u bs, BuilderFits (run (packageCrypto H blake256) (NewTxBuilder p [sampleKey]) sampleOps) ∧
      Finishes (packageCrypto H blake256) (run (packageCrypto H blake256) (NewTxBuilder p [sampleKey]) sampleOps) bs ∧
      Ledger.Valid (ledgerCrypto H blake224 blake256) e u bs := by
  obtain ⟨p, e, bs, pk, -, h1, h2, h3⟩ := sampleOps_accepted H hH blake224 blake256 h256
  exact ⟨p, e, _, bs, h1, h2, h3⟩

/-- C107, second theorem: the input is locked by the hash of something else; it is at a script address; at a Byron address. -/
example (H : Hashes) (hH : H.Ok) (blake224 blake256 : Bytes → Bytes) (h256 : ∀ m, (blake256 m).length = 32) (other : Bytes)
    (h224 : ∀ m, (blake224 m).length = 28) (ho : ∀ pk, (packageCrypto H blake256).publicKey sampleKey = .ok pk → blake224 pk ≠ blake224 other) :
    ∃ p bs, Finishes (packageCrypto H blake256) (run (packageCrypto H blake256) (NewTxBuilder p [sampleKey]) sampleOps) bs ∧
      (∀ e, ¬ Ledger.Valid (ledgerCrypto H blake224 blake256) e (fun _ => some (Addr.bytes (.enterprise MainNet ⟨0, blake224 other⟩), 10000000)) bs) ∧
      (∀ e, ¬ Ledger.Valid (ledgerCrypto H blake224 blake256) e (fun _ => some (Addr.bytes (.enterprise MainNet ⟨1, List.replicate 28 5⟩), 10000000)) bs) ∧
      ∀ e, ¬ Ledger.Valid (ledgerCrypto H blake224 blake256) e (fun _ => some (Addr.bytes (.byron ⟨List.replicate 28 0xab, ⟨[], none⟩, 0⟩), 10000000)) bs := by
  obtain ⟨p, e, bs, pk, hpk, h1, h2, h3⟩ := sampleOps_accepted H hH blake224 blake256 h256
  have go := fun e u => C107_others_rejected H hH blake224 blake256 h256 p [sampleKey] sampleOps u e bs h1 h2
    [⟨List.replicate 32 7, 0, 10000000⟩] List.mem_cons_self _ (List.mem_singleton.2 rfl)
  refine ⟨p, bs, h2, fun e => go e _ _ _ rfl (.inl ?_), fun e => go e _ _ _ rfl (.inr (.inl ⟨_, _, rfl, .inl rfl⟩)), fun e => go e _ _ _ rfl (.inr (.inr (.inl ⟨_, rfl⟩)))⟩
  rintro key pk' hk hpk' ⟨h, rest, e⟩
  have hk : key = sampleKey := by
    rcases hk with hk | hk
    · exact List.mem_singleton.1 hk
    · simp [sampleOps] at hk
  subst hk
  have e : _ :: copyZ 28 (blake224 other) = _ := e
  rw [copyZ_eq _ _ (h224 other)] at e
  injection e with _ e
  rw [← List.append_nil (blake224 other)] at e
  exact ho pk' hpk' (List.append_inj e (by rw [h224, h224])).1.symm

/-- C106, last theorem: the credential is the hash of the key and four more bytes. -/
example (H : Hashes) (hH : H.Ok) (blake224 blake256 : Bytes → Bytes) (h224 : ∀ m, (blake224 m).length = 28) (h256 : ∀ m, (blake256 m).length = 32) :
    ∃ p e u bs c l i, BuilderFits (run (packageCrypto H blake256) (NewTxBuilder p [sampleKey]) sampleOps) ∧
      Finishes (packageCrypto H blake256) (run (packageCrypto H blake256) (NewTxBuilder p [sampleKey]) sampleOps) bs ∧
      Ledger.Valid (ledgerCrypto H blake224 blake256) e u bs ∧ .addInputs l ∈ sampleOps ∧ i ∈ l ∧ c.payload.length = 32 ∧
      u (refOf i) = some (Addr.bytes (.enterprise MainNet c), 10000000) := by
  obtain ⟨p, e, bs, pk, hpk, h1, h2, h3⟩ := sampleOps_accepted H hH blake224 blake256 h256
  refine ⟨p, e, _, bs, ⟨0, blake224 pk ++ [1, 2, 3, 4]⟩, _, _, h1, h2, h3, List.mem_cons_self, List.mem_singleton.2 rfl, by simp [h224], ?_⟩
  have e1 : sampleUTxO blake224 pk 10000000 (List.replicate 32 7, 0) = some (0x61 :: blake224 pk, 10000000) := if_pos rfl
  refine e1.trans ?_
  have e2 : Addr.bytes (.enterprise MainNet ⟨0, blake224 pk ++ [1, 2, 3, 4]⟩) = ((0x60 : UInt8) ||| ((0 : UInt8) <<< 4) ||| (MainNet.networkId &&& 0xf)) :: copyZ 28 (blake224 pk ++ [1, 2, 3, 4]) := rfl
  rw [e2, copyZ_fitted, show ((0x60 : UInt8) ||| ((0 : UInt8) <<< 4) ||| (MainNet.networkId &&& 0xf)) = 0x61 by decide]
  unfold fitted
  rw [if_pos (by simp [h224]), List.take_left' (h224 pk)]

/-- C106: an address with a public key in place of its hash, and one with a short credential. -/
example : fitted (List.replicate 32 7) = List.replicate 28 7 ∧ fitted [1, 2, 3] = [1, 2, 3] ++ List.replicate 25 0 ∧
    Addr.bytes (.enterprise MainNet ⟨0, List.replicate 32 7⟩) = 0x61 :: List.replicate 28 7 ∧
    Addr.bytes (.enterprise MainNet ⟨0, [1, 2, 3]⟩) = 0x61 :: ([1, 2, 3] ++ List.replicate 25 0) := by decide +kernel

/-- C106, third theorem: an address is read. -/
example : ∃ a, NewAddressFromBytes true (0x61 :: List.replicate 28 7) [] = .ok a ∧ credentials a = [List.replicate 28 7] := ⟨_, rfl, by decide⟩

end Cardano.Props
