import Verif.Props.Restore
/-!
# Property C128: different derivation paths give different keys
-/
set_option autoImplicit false

namespace Cardano.Props
open Cbor TxSpec Transaction TxBuilder Addr Bip32 Spec

/-- On the paths `p` and `q` from `root` there are two steps for which HMAC-SHA512 is computed of different inputs and has the same last 32 bytes of output. -/
def StepsCollide (H : Hashes) (root : Bytes) (p q : List UInt32) : Prop :=
  ∃ p' i q' j k k', p' ++ [i] <+: p ∧ q' ++ [j] <+: q ∧ derivePath H makePublicKey root p' = .ok k ∧ derivePath H makePublicKey root q' = .ok k' ∧
    (k.drop 64, macInput 1 3 makePublicKey k i) ≠ (k'.drop 64, macInput 1 3 makePublicKey k' j) ∧
    (H.hmac512 (k.drop 64) (macInput 1 3 makePublicKey k i)).drop 32 = (H.hmac512 (k'.drop 64) (macInput 1 3 makePublicKey k' j)).drop 32

/-- Under the chain code of the key `a`, the messages for the children `i` and `j` are different and HMAC-SHA512 has the same first 28 bytes for both. -/
def ChildrenCollide (H : Hashes) (a : Bytes) (i j : UInt32) : Prop :=
  macInput 0 2 makePublicKey a i ≠ macInput 0 2 makePublicKey a j ∧
    (H.hmac512 (a.drop 64) (macInput 0 2 makePublicKey a i)).take 28 = (H.hmac512 (a.drop 64) (macInput 0 2 makePublicKey a j)).take 28

theorem makePublicKey_length (k : Bytes) : (makePublicKey k).length = 32 := by
  unfold makePublicKey Ed.Ext.ToBytes Ed.flipTop
  simp [Ed.FeToBytes, Ed.packField]

theorem macInput_inj {a b : UInt8} (hab : a ≠ b) (pub : Bytes → Bytes) (hp : ∀ x, (pub x).length = 32) {k k' : Bytes} (hk : k.length = 96) (hk' : k'.length = 96)
    {i j : UInt32} (h : macInput a b pub k i = macInput a b pub k' j) :
    i = j ∧ ∀ c d : UInt8, macInput c d pub k i = macInput c d pub k' j := by
  unfold macInput at h ⊢
  have fin : ∀ (x y : UInt8) {p q : Bytes}, p.length = q.length → x :: p ++ leBytes 4 i.toNat = y :: q ++ leBytes 4 j.toNat →
      x = y ∧ p = q ∧ i = j := by
    intro x y p q hl e
    rw [List.cons_append, List.cons_append, List.cons.injEq] at e
    obtain ⟨e0, e⟩ := e
    obtain ⟨e1, e2⟩ := List.append_inj e hl
    refine ⟨e0, e1, ?_⟩
    have := congrArg leNat e2
    rw [leNat_leBytes, leNat_leBytes] at this
    have hi := i.toNat_lt
    have hj := j.toNat_lt
    exact UInt32.toNat_inj.1 (by omega)
  by_cases c : i.toNat < 2 ^ 31 <;> by_cases d : j.toNat < 2 ^ 31
  · rw [if_pos c, if_pos d] at h
    obtain ⟨-, h1, rfl⟩ := fin _ _ (by rw [hp, hp]) h
    refine ⟨rfl, fun _ _ => ?_⟩
    rw [if_pos c, if_pos c, h1]
  · rw [if_pos c, if_neg d] at h
    rw [List.cons_append, List.cons_append, List.cons.injEq] at h
    exact absurd h.1.symm hab
  · rw [if_neg c, if_pos d] at h
    rw [List.cons_append, List.cons_append, List.cons.injEq] at h
    exact absurd h.1 hab
  · rw [if_neg c, if_neg d] at h
    obtain ⟨-, h1, rfl⟩ := fin _ _ (by simp [hk, hk']) h
    refine ⟨rfl, fun _ _ => ?_⟩
    rw [if_neg c, if_neg c, h1]

/-- One step of derivation takes different pairs of keys and indices to different keys. -/
theorem derive_injective (H : Hashes) (hH : H.Ok) (pub : Bytes → Bytes) (hp : ∀ x, (pub x).length = 32) (k k' : Bytes) (hk : k.length = 96) (hk' : k'.length = 96)
    (i j : UInt32) (h : Derive H pub k i = Derive H pub k' j) : (k = k' ∧ i = j) ∨ (k.drop 64, macInput 1 3 pub k i) ≠ (k'.drop 64, macInput 1 3 pub k' j) ∧
      (H.hmac512 (k.drop 64) (macInput 1 3 pub k i)).drop 32 = (H.hmac512 (k'.drop 64) (macInput 1 3 pub k' j)).drop 32 := by
  obtain ⟨c, e, -, h1, h2, h3⟩ := C33_derive H hH pub k hk i
  obtain ⟨c', e', -, h1', h2', h3'⟩ := C33_derive H hH pub k' hk' j
  rw [e, e'] at h
  obtain rfl := Res.ok.inj h
  by_cases hc : (k.drop 64, macInput 1 3 pub k i) = (k'.drop 64, macInput 1 3 pub k' j)
  · left
    rw [Prod.mk.injEq] at hc
    obtain ⟨hij, hm⟩ := macInput_inj (by decide) pub hp hk hk' hc.2
    refine ⟨?_, hij⟩
    rw [h1, hc.1, hm] at h1'
    rw [h2, hc.1, hm] at h2'
    have l1 := leNat_lt (k.take 32)
    have l2 := leNat_lt (k'.take 32)
    have l3 := leNat_lt ((k.drop 32).take 32)
    have l4 := leNat_lt ((k'.drop 32).take 32)
    rw [show (k.take 32).length = 32 by simp [hk]] at l1
    rw [show (k'.take 32).length = 32 by simp [hk']] at l2
    rw [show ((k.drop 32).take 32).length = 32 by simp [hk]] at l3
    rw [show ((k'.drop 32).take 32).length = 32 by simp [hk']] at l4
    have a1 : k.take 32 = k'.take 32 := leNat_inj (by simp [hk, hk']) (by omega)
    have a2 : (k.drop 32).take 32 = (k'.drop 32).take 32 := leNat_inj (by simp [hk, hk']) (by omega)
    have split : ∀ x : Bytes, x = x.take 32 ++ ((x.drop 32).take 32 ++ x.drop 64) := by
      intro x
      conv_lhs => rw [← List.take_append_drop 32 x, ← List.take_append_drop 32 (x.drop 32), List.drop_drop]
    rw [split k, split k', a1, a2, hc.1]
  · exact Or.inr ⟨hc, h3.symm.trans h3'⟩

theorem derivePath_snoc (H : Hashes) (pub : Bytes → Bytes) (p : List UInt32) (i : UInt32) : ∀ k, derivePath H pub k (p ++ [i]) = derivePath H pub k p >>= fun c => Derive H pub c i := by
  induction p with
  | nil =>
    intro k
    show (Derive H pub k i >>= fun c => Res.ok c) = Derive H pub k i
    cases Derive H pub k i <;> rfl
  | cons j p ih =>
    intro k
    show (Derive H pub k j >>= fun c => derivePath H pub c (p ++ [i])) = (Derive H pub k j >>= fun c => derivePath H pub c p) >>= _
    cases Derive H pub k j with
    | ok c => exact ih c
    | err e => rfl
    | panic => rfl

theorem derivePath_length (H : Hashes) (hH : H.Ok) (pub : Bytes → Bytes) (p : List UInt32) : ∀ k : Bytes, k.length = 96 → ∃ c, derivePath H pub k p = .ok c ∧ c.length = 96 := by
  induction p with
  | nil => intro k hk; exact ⟨k, rfl, hk⟩
  | cons i p ih =>
    intro k hk
    obtain ⟨c, e, hl, -⟩ := C33_derive H hH pub k hk i
    obtain ⟨d, e', hl'⟩ := ih c hl
    refine ⟨d, ?_, hl'⟩
    rw [derivePath, e]; exact e'

/-- **C128.** From one extended private key of 96 bytes, two different paths, with whatever steps, hardened or not, lead to different extended private keys; otherwise
either HMAC-SHA512 collides in its last 32 bytes on two different inputs met on these paths, or there is a path that is not empty and leads back to the key where it began
(impossible for paths of the same length). -/
theorem C128_paths (H : Hashes) (hH : H.Ok) (root : Bytes) (hr : root.length = 96) (p q : List UInt32) (hpq : p ≠ q)
    (h : derivePath H makePublicKey root p = derivePath H makePublicKey root q) :
    StepsCollide H root p q ∨ p.length ≠ q.length ∧ ∃ r, r ≠ [] ∧ (r <+: p ∨ r <+: q) ∧ derivePath H makePublicKey root r = .ok root := by
  have hp := makePublicKey_length
  induction p using List.reverseRecOn generalizing q with
  | nil =>
    right
    refine ⟨fun e => hpq ?_, q, fun e => hpq e.symm, Or.inr (List.prefix_rfl), h.symm⟩
    exact (List.length_eq_zero_iff.1 e.symm).symm
  | append_singleton p i ih =>
    rcases List.eq_nil_or_concat' q with rfl | ⟨q, j, rfl⟩
    · right
      exact ⟨by simp, p ++ [i], by simp, Or.inl List.prefix_rfl, h⟩
    rw [derivePath_snoc, derivePath_snoc] at h
    obtain ⟨k, e, hk⟩ := derivePath_length H hH makePublicKey p root hr
    obtain ⟨k', e', hk'⟩ := derivePath_length H hH makePublicKey q root hr
    rw [e, e'] at h
    rcases derive_injective H hH makePublicKey hp k k' hk hk' i j h with ⟨rfl, rfl⟩ | hc
    · rcases ih q (fun x => hpq (by rw [x])) (e.trans e'.symm) with ⟨p', i', q', j', k1, k2, x1, x2, hc⟩ | ⟨hl, r, r0, hpre, hr⟩
      · exact Or.inl ⟨p', i', q', j', k1, k2, x1.trans (List.prefix_append _ _), x2.trans (List.prefix_append _ _), hc⟩
      · right
        refine ⟨by simpa using hl, r, r0, ?_, hr⟩
        rcases hpre with x | x
        · exact Or.inl (x.trans (List.prefix_append _ _))
        · exact Or.inr (x.trans (List.prefix_append _ _))
    · exact Or.inl ⟨p, i, q, j, k, k', List.prefix_rfl, List.prefix_rfl, e, e', hc⟩

/-- **C128**, public keys: two different indices after one path from a clamped root, as for the addresses of one account, give different public keys, except
exactly if HMAC-SHA512 has the same first 28 bytes for the two different messages that are computed for the two indices. -/
theorem C128_public_keys (H : Hashes) (hH : H.Ok) (root : Bytes) (hr : Clamped root) (path : List UInt32) (hp : path.length + 1 < 2 ^ 26) (i j : UInt32) (hij : i ≠ j) :
    ∃ a k k' pk pk', derivePath H makePublicKey root path = .ok a ∧ derivePath H makePublicKey root (path ++ [i]) = .ok k ∧ derivePath H makePublicKey root (path ++ [j]) = .ok k' ∧
      MakePublicKey k = .ok pk ∧ MakePublicKey k' = .ok pk' ∧ (pk = pk' ↔ ChildrenCollide H a i j) := by
  obtain ⟨k, e, hl, h8, hlo, hhi⟩ := C34_path_scalars H hH makePublicKey root hr (path ++ [i]) (by simpa using hp)
  obtain ⟨k', e', hl', h8', hlo', hhi'⟩ := C34_path_scalars H hH makePublicKey root hr (path ++ [j]) (by simpa using hp)
  obtain ⟨pk, -, h1, -⟩ := C36_public_key k hl hhi
  obtain ⟨pk', -, h1', -⟩ := C36_public_key k' hl' hhi'
  obtain ⟨a, ea, hla, -⟩ := C34_path_scalars H hH makePublicKey root hr path (by omega)
  refine ⟨a, k, k', pk, pk', ea, e, e', h1, h1', ?_⟩
  rw [derivePath_snoc, ea] at e e'
  have e : Derive H makePublicKey a i = .ok k := e
  have e' : Derive H makePublicKey a j = .ok k' := e'
  obtain ⟨c, d, -, z, -⟩ := C33_derive H hH makePublicKey a hla i
  obtain ⟨c', d', -, z', -⟩ := C33_derive H hH makePublicKey a hla j
  obtain rfl := Res.ok.inj (d.symm.trans e)
  obtain rfl := Res.ok.inj (d'.symm.trans e')
  constructor
  · intro hpk
    subst hpk
    have ht := C61_public_key_injective c c' hl hl' hhi hhi' h8 h8' (h1.trans h1'.symm)
    rw [ht, z'] at z
    refine ⟨fun hm => hij (macInput_inj (by decide) makePublicKey makePublicKey_length hla hla hm).1, ?_⟩
    have l1 := leNat_lt ((H.hmac512 (a.drop 64) (macInput 0 2 makePublicKey a i)).take 28)
    have l2 := leNat_lt ((H.hmac512 (a.drop 64) (macInput 0 2 makePublicKey a j)).take 28)
    rw [show ((H.hmac512 (a.drop 64) (macInput 0 2 makePublicKey a i)).take 28).length = 28 by simp [hH.hmac512]] at l1
    rw [show ((H.hmac512 (a.drop 64) (macInput 0 2 makePublicKey a j)).take 28).length = 28 by simp [hH.hmac512]] at l2
    have l3 := leNat_lt (a.take 32)
    rw [show (a.take 32).length = 32 by simp [hla]] at l3
    exact leNat_inj (by simp [hH.hmac512]) (by omega)
  · intro hc
    rw [hc.2, ← z'] at z
    have ht : c.take 32 = c'.take 32 := leNat_inj (by simp [hl, hl']) z
    unfold MakePublicKey makePublicKey at h1 h1'
    rw [if_neg (by omega)] at h1 h1'
    rw [ht] at h1
    exact Res.ok.inj (h1.symm.trans h1')

/-- **C128**, addresses: two different indices after one path from the root of any entropy and password give different address texts, on whatever networks and with
whatever stake credentials; otherwise BLAKE2b-224 collides on the two public keys, or HMAC-SHA512 in its first 28 bytes on the messages for the two indices. -/
theorem C128_addresses (H : Hashes) (hH : H.Ok) (blake224 : Bytes → Bytes) (h224 : ∀ m, (blake224 m).length = 28) (entropy password : Bytes) (path : List UInt32)
    (hp : path.length + 1 < 2 ^ 26) (i j : UInt32) (hij : i ≠ j) :
    ∃ root a k k' pk pk' c c', FromBip39Entropy H entropy password = .ok root ∧ derivePath H makePublicKey root path = .ok a ∧ derivePath H makePublicKey root (path ++ [i]) = .ok k ∧
      derivePath H makePublicKey root (path ++ [j]) = .ok k' ∧ MakePublicKey k = .ok pk ∧ MakePublicKey k' = .ok pk' ∧ credOf blake224 k = .ok c ∧ credOf blake224 k' = .ok c' ∧
      ∀ (main main' : Bool) (stake stake' : Option (Bool × Bytes)), (∀ x ∈ stake, x.2.length = 28) → (∀ x ∈ stake', x.2.length = 28) →
        Addr.string (addressFor main c stake) = Addr.string (addressFor main' c' stake') →
        ChildrenCollide H a i j ∨ pk ≠ pk' ∧ blake224 pk = blake224 pk' := by
  obtain ⟨root, e1, hr, -⟩ := C32_bip39_root_key H hH entropy password
  obtain ⟨a, k, k', pk, pk', ea, e, e', h1, h1', hcol⟩ := C128_public_keys H hH root hr path hp i j hij
  obtain ⟨k1, d, hl, -, -, hhi⟩ := C34_path_scalars H hH makePublicKey root hr (path ++ [i]) (by simpa using hp)
  obtain ⟨k2, d', hl', -, -, hhi'⟩ := C34_path_scalars H hH makePublicKey root hr (path ++ [j]) (by simpa using hp)
  obtain rfl := Res.ok.inj (d.symm.trans e)
  obtain rfl := Res.ok.inj (d'.symm.trans e')
  obtain ⟨p, a1, a2⟩ := credOf_key blake224 h224 H blake224 k1 hl hhi
  obtain ⟨p', a1', a2'⟩ := credOf_key blake224 h224 H blake224 k2 hl' hhi'
  rw [packageCrypto_publicKey H blake224 k1 hl hhi, h1] at a1
  rw [packageCrypto_publicKey H blake224 k2 hl' hhi', h1'] at a1'
  obtain rfl := Res.ok.inj a1
  obtain rfl := Res.ok.inj a1'
  refine ⟨root, a, k1, k2, pk, pk', _, _, e1, ea, e, e', h1, h1', a2, a2', fun main main' stake stake' hs hs' ht => ?_⟩
  have hok : ∀ (main : Bool) (stake : Option (Bool × Bytes)) (pk : Bytes), (∀ x ∈ stake, x.2.length = 28) → ShelleyOk (addressFor main ⟨0, blake224 pk⟩ stake) := by
    intro main stake pk hst
    have hn : NetOk (cip19Net main) := by cases main; exacts [.inr rfl, .inl rfl]
    cases stake with
    | none => exact ⟨hn, .inl rfl, h224 _⟩
    | some x =>
      obtain ⟨ss, h⟩ := x
      exact ⟨hn, ⟨.inl rfl, h224 _⟩, by cases ss; exacts [⟨.inl rfl, hst _ rfl⟩, ⟨.inr rfl, hst _ rfl⟩]⟩
  have hnp : ∀ (main : Bool) (stake : Option (Bool × Bytes)) (pk : Bytes) n p s, addressFor main ⟨0, blake224 pk⟩ stake ≠ .pointer n p s := by
    intro main stake pk
    cases stake with
    | none => exact nofun
    | some x => exact nofun
  have ha := C16_string_injective _ _ (hok main stake pk hs) (hok main' stake' pk' hs') (hnp _ _ _) (hnp _ _ _) ht
  have hb : blake224 pk = blake224 pk' := by
    cases stake <;> cases stake' <;> simp only [addressFor, NewBaseAddress, NewEnterpriseAddress] at ha
    · injection ha with _ ha; injection ha
    · cases ha
    · cases ha
    · injection ha with _ ha; injection ha
  by_cases hx : pk = pk'
  · exact Or.inl (hcol.1 hx)
  · exact Or.inr ⟨hx, hb⟩

/-- The root of every entropy and password is a key for `C128_paths` and `C128_public_keys`; the paths of CIP-1852 of the first two addresses of the first account are
different, of one length, and differ in the last step. -/
example (entropy password : Bytes) :
    (∃ root, FromBip39Entropy Hash.real entropy password = .ok root ∧ Clamped root ∧ root.length = 96) ∧
    ([0x8000073c, 0x80000717, 0x80000000, 0] ++ [0] : List UInt32) ≠ [0x8000073c, 0x80000717, 0x80000000, 0] ++ [1] := by
  obtain ⟨root, e, h, -⟩ := C32_bip39_root_key Hash.real Hash.real_ok entropy password
  exact ⟨⟨root, e, h, h.size⟩, by decide⟩

/-- Where HMAC-SHA512 tells the two messages apart, as it does whenever its last 32 bytes differ, two children of one key are different. -/
example (H : Hashes) (hH : H.Ok) (root : Bytes) (hr : root.length = 96) (i j : UInt32) (hij : i ≠ j)
    (hno : (H.hmac512 (root.drop 64) (macInput 1 3 makePublicKey root i)).drop 32 ≠ (H.hmac512 (root.drop 64) (macInput 1 3 makePublicKey root j)).drop 32) :
    derivePath H makePublicKey root [i] ≠ derivePath H makePublicKey root [j] := by
  intro h
  rcases C128_paths H hH root hr [i] [j] (by simpa using hij) h with ⟨p', i', q', j', k, k', h1, h2, h3, h4, -, h5⟩ | ⟨hl, -⟩
  · have l1 := h1.length_le
    have l2 := h2.length_le
    simp only [List.length_append, List.length_cons, List.length_nil] at l1 l2
    obtain rfl : p' = [] := List.length_eq_zero_iff.1 (by omega)
    obtain rfl : q' = [] := List.length_eq_zero_iff.1 (by omega)
    obtain rfl := Res.ok.inj h3
    obtain rfl := Res.ok.inj h4
    simp only [List.nil_append, List.cons_prefix_cons] at h1 h2
    rw [h1.1, h2.1] at h5
    exact hno h5
  · exact hl rfl

end Cardano.Props
