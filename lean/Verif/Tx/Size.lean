import Verif.Tx.Lemmas
/-!
# Sizes of serialised transactions
-/
set_option autoImplicit false

namespace Cardano.TxSpec

/-- RFC 8949 section 3: the size of the head of a data item with argument `n`, hence the size of an unsigned integer. -/
def uintSize (n : Nat) : Nat := if n < 24 then 1 else if n < 2 ^ 8 then 2 else if n < 2 ^ 16 then 3 else if n < 2 ^ 32 then 5 else 9

theorem uintSize_mono {a b : Nat} (h : a ≤ b) : uintSize a ≤ uintSize b := by
  unfold uintSize; repeat' split
  all_goals omega

theorem uintSize_le (n : Nat) : 1 ≤ uintSize n ∧ uintSize n ≤ 9 := by
  unfold uintSize; repeat' split
  all_goals omega

end Cardano.TxSpec

namespace Cardano.Transaction
open Cbor TxSpec Addr

theorem encHead_length (t : UInt8) (n : UInt64) : (encHead t n).length = uintSize n.toNat := by
  unfold encHead uintSize; repeat' split
  all_goals simp [beBytes_length]

theorem encUint_length (n : UInt64) : (encUint n).length = uintSize n.toNat := encHead_length _ _

theorem encBytes_length (b : Bytes) (h : b.length < 2 ^ 64) : (encBytes b).length = uintSize b.length + b.length := by
  simp only [encBytes, List.length_append, encHead_length, ofNat64 _ h]

/-- Size of one key witness with a 32-byte key and a 64-byte signature. -/
theorem vkey_length (w : VKeyWitness) (h1 : w.vkey.length = 32) (h2 : w.signature.length = 64) : (marshalVKey w).length = 101 := by
  simp only [marshalVKey, encArray, List.length_append, encHead_length, List.flatten_cons, List.flatten_nil, List.length_nil,
    List.length_cons, encBytes_length _ (show w.vkey.length < 2 ^ 64 by omega), encBytes_length _ (show w.signature.length < 2 ^ 64 by omega), h1, h2]
  decide

/-- Every witness has a 32-byte key and a 64-byte signature. -/
def StdWit (ws : List VKeyWitness) : Prop := ∀ w ∈ ws, w.vkey.length = 32 ∧ w.signature.length = 64

theorem flatten_vkeys_length (ws : List VKeyWitness) (h : StdWit ws) : ((ws.map marshalVKey).flatten).length = 101 * ws.length := by
  induction ws with
  | nil => rfl
  | cons w ws ih =>
    have := h w (by simp)
    simp only [List.map_cons, List.flatten_cons, List.length_append, vkey_length w this.1 this.2,
      ih (fun x hx => h x (by simp [hx])), List.length_cons]
    omega

theorem witness_length (ws : List VKeyWitness) (h : StdWit ws) (hl : ws.length < 2 ^ 63) :
    (marshalWitness ws).length = if ws.length = 0 then 1 else 2 + uintSize ws.length + 101 * ws.length := by
  unfold marshalWitness
  by_cases c : ws.length = 0
  · rw [if_pos c, if_pos c]; decide
  · rw [if_neg c, if_neg c]
    have a1 : (encHead 0xa0 (UInt64.ofNat 1)).length = 1 := by decide
    have a2 : (encUint 0).length = 1 := by decide
    simp only [encMap, List.map_cons, List.map_nil, List.flatten_cons, List.flatten_nil, List.append_nil, List.length_append,
      List.length_cons, List.length_nil, a1, a2, encArray, encHead_length, List.length_map, ofNat64 _ (show ws.length < 2 ^ 64 by omega),
      flatten_vkeys_length ws h, Nat.zero_add]
    omega

theorem collect_append (l : List TxOutput) (o : TxOutput) (bs : List Bytes) :
    collect ((l ++ [o]).map marshalOutput) = .ok bs ↔ ∃ as a, collect (l.map marshalOutput) = .ok as ∧ marshalOutput o = .ok a ∧ bs = as ++ [a] := by
  induction l generalizing bs with
  | nil =>
    simp only [List.nil_append, List.map_cons, List.map_nil, collect]
    constructor
    · intro h
      obtain ⟨a, ha, h⟩ := bind_ok h
      injection h with h
      exact ⟨[], a, rfl, ha, h.symm⟩
    · rintro ⟨as, a, h1, h2, h3⟩
      injection h1 with h1
      subst h1 h3
      rw [h2]; rfl
  | cons x l ih =>
    simp only [List.cons_append, List.map_cons, collect]
    constructor
    · intro h
      obtain ⟨b, hb, h⟩ := bind_ok h
      obtain ⟨bs', hbs, h⟩ := bind_ok h
      injection h with h
      obtain ⟨as, a, h1, h2, h3⟩ := (ih bs').1 hbs
      refine ⟨b :: as, a, ?_, h2, ?_⟩
      · rw [hb]; simp only [Res.ok_bind]; rw [h1]; rfl
      · rw [← h, h3]; rfl
    · rintro ⟨as, a, h1, h2, h3⟩
      obtain ⟨b, hb, h⟩ := bind_ok h1
      obtain ⟨bs', hbs, h⟩ := bind_ok h
      injection h with h
      rw [hb]; simp only [Res.ok_bind]
      rw [(ih (bs' ++ [a])).2 ⟨bs', a, hbs, h2, rfl⟩, h3, ← h]; rfl

/-- The parts of the size of a body that do not depend on fee, last output or auxiliary data hash. -/
theorem body_length (b : TxBody) (bs : Bytes) (h : marshalBody b = .ok bs) (hx : b.auxHash = [] ∨ b.auxHash.length = 32) :
    ∃ outs, collect (b.outputs.map marshalOutput) = .ok outs ∧
      bs.length = 4 + (encArray (b.inputs.map marshalInput)).length + (encArray outs).length + uintSize b.fee.toNat +
        (if b.ttl = 0 then 0 else 1 + uintSize b.ttl.toNat) + (if b.auxHash = [] then 0 else 35) := by
  obtain ⟨outs, ho, h⟩ := bind_ok h
  refine ⟨outs, ho, ?_⟩
  injection h with h
  subst h
  have hx' : (b.auxHash.length = 0) = (b.auxHash = []) := by simp
  have u0 : (encUint 0).length = 1 := by decide
  have u1 : (encUint 1).length = 1 := by decide
  have u2 : (encUint 2).length = 1 := by decide
  have u3 : (encUint 3).length = 1 := by decide
  have u7 : (encUint 7).length = 1 := by decide
  have httl : (encUint (UInt64.ofNat b.ttl.toNat)).length = uintSize b.ttl.toNat := by
    rw [encUint_length, ofNat64 _ (by have := UInt32.toNat_lt b.ttl; omega)]
  simp only [hx']
  have s3 : uintSize 3 = 1 := by decide
  have s4 : uintSize 4 = 1 := by decide
  have s5 : uintSize 5 = 1 := by decide
  by_cases c1 : b.ttl = 0 <;> by_cases c2 : b.auxHash = []
  all_goals
    simp only [c1, c2, if_true, if_false, encMap, List.append_nil, List.cons_append, List.nil_append, List.map_cons, List.map_nil,
      List.flatten_cons, List.flatten_nil, List.length_append, List.length_cons, List.length_nil, u0, u1, u2, u3, u7, encHead_length,
      encUint_length b.fee, httl]
  · simp only [show (UInt64.ofNat (0 + 1 + 1 + 1)).toNat = 3 from rfl, s3]; omega
  · have e : (encBytes b.auxHash).length = 34 := by
      rw [encBytes_length _ (by rcases hx with h | h; exact absurd h c2; omega)]
      rcases hx with h | h
      · exact absurd h c2
      · rw [h]; decide
    simp only [show (UInt64.ofNat (0 + 1 + 1 + 1 + 1)).toNat = 4 from rfl, s4, e]; omega
  · simp only [show (UInt64.ofNat (0 + 1 + 1 + 1 + 1)).toNat = 4 from rfl, s4]; omega
  · have e : (encBytes b.auxHash).length = 34 := by
      rw [encBytes_length _ (by rcases hx with h | h; exact absurd h c2; omega)]
      rcases hx with h | h
      · exact absurd h c2
      · rw [h]; decide
    simp only [show (UInt64.ofNat (0 + 1 + 1 + 1 + 1 + 1)).toNat = 5 from rfl, s5, e]; omega

theorem encArray_snoc_length (as : List Bytes) (a : Bytes) (h : as.length + 1 < 2 ^ 64) :
    (encArray (as ++ [a])).length = uintSize (as.length + 1) + as.flatten.length + a.length := by
  simp only [encArray, List.length_append, encHead_length, List.length_cons, List.length_nil, List.flatten_append,
    List.flatten_cons, List.flatten_nil, List.append_nil, Nat.zero_add, ofNat64 _ h]
  omega

theorem output_length (a : Address) (am : UInt64) (b : Bytes) (h : marshalOutput ⟨a, am⟩ = .ok b) :
    ∃ ab, marshalAddress a = .ok ab ∧ b.length = 1 + ab.length + uintSize am.toNat := by
  obtain ⟨ab, h1, h⟩ := bind_ok h
  injection h with h
  refine ⟨ab, h1, ?_⟩
  subst h
  simp only [encArray, List.length_append, encHead_length, List.flatten_cons, List.flatten_nil, List.length_cons,
    List.length_nil, encUint_length, show (UInt64.ofNat (0 + 1 + 1)).toNat = 2 from rfl, show uintSize 2 = 1 by decide]
  omega

theorem tx_length (t : Tx) (k : Nat) (bs : Bytes) (h : marshalTx t k = .ok bs) :
    ∃ b m, marshalBody t.body = .ok b ∧ marshalMetadata t.metadata k = .ok m ∧
      bs.length = 2 + b.length + (marshalWitness t.witness).length + m.length := by
  obtain ⟨b, m, h1, h2, h3⟩ := marshalTx_parts t k bs h
  refine ⟨b, m, h1, h2, ?_⟩
  have : (encBool t.valid).length = 1 := by cases t.valid <;> rfl
  rw [h3]
  simp only [List.length_cons, List.length_append, this]
  omega

end Cardano.Transaction
