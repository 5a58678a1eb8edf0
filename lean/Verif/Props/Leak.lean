import Verif.Props.WatchOnly
import Verif.Props.Paths
/-!
# Property C132: the key of one address and the extended public key of its account
-/
set_option autoImplicit false

namespace Cardano.Props
open Ed Bip32

/-- What somebody can compute who has an extended public key (32 bytes of public key and a chain code) and the private key of its child with the soft index `i`: take from
both halves of the child what the MAC of the byte 2, the public key and the index contributed, and append the chain code. Only the two given byte strings, the index and the
MAC enter. -/
def parentOf (H : Hashes) (xpub : Bytes) (i : Nat) (child : Bytes) : Bytes :=
  let z := H.hmac512 (xpub.drop 32) (2 :: (xpub.take 32 ++ leBytes 4 i))
  leBytes 32 (leNat (child.take 32) + 2 ^ 256 - 8 * leNat (z.take 28)) ++ leBytes 32 (leNat ((child.drop 32).take 32) + 2 ^ 256 - leNat (z.drop 32)) ++ xpub.drop 32

/-- The same along a path of soft indices: the extended public keys on the way are those of the public derivation. -/
inductive Undo (H : Hashes) : Bytes → List UInt32 → Bytes → Bytes → Prop
  | nil (x k : Bytes) : Undo H x [] k k
  | cons {x y k c : Bytes} {i : UInt32} {path : List UInt32} (h : PublicChild H x i.toNat y) (t : Undo H y path k c) : Undo H x (i :: path) k (parentOf H x i.toNat c)

/-- There is one result at most. -/
theorem Undo.unique {H : Hashes} {x k a a' : Bytes} {path : List UInt32} (h : Undo H x path k a) (h' : Undo H x path k a') : a = a' := by
  induction h generalizing a' with
  | nil x k => cases h'; rfl
  | cons h t ih =>
    cases h' with
    | cons g t' =>
      obtain rfl := h.unique g
      rw [ih t']

/-- **C132, one step.** The extended public key of any 96-byte key and the private key of a child with a soft index give the private key, all of its 96 bytes. -/
theorem C132_parent (H : Hashes) (hH : H.Ok) (key child xpub : Bytes) (hk : key.length = 96) (i : UInt32) (hi : i.toNat < 2 ^ 31)
    (hd : Derive H makePublicKey key i = .ok child) (hx : Public makePublicKey key = .ok xpub) : parentOf H xpub i.toNat child = key := by
  obtain ⟨c, e, hl, h1, h2, -⟩ := C33_derive H hH makePublicKey key hk i
  obtain rfl := Res.ok.inj (e.symm.trans hd)
  unfold Public at hx
  rw [if_neg (by omega), makePublicKey_take] at hx
  obtain rfl := Res.ok.inj hx
  have hm : (makePublicKey key).length = 32 := makePublicKey_length key
  have ht : (makePublicKey key ++ key.drop 64).take 32 = makePublicKey key := by rw [← hm, List.take_left]
  have hdr : (makePublicKey key ++ key.drop 64).drop 32 = key.drop 64 := by rw [← hm, List.drop_left]
  have hin : macInput 0 2 makePublicKey key i = 2 :: (makePublicKey key ++ leBytes 4 i.toNat) := by
    unfold macInput; rw [if_pos hi, makePublicKey_take]; rfl
  rw [hin] at h1 h2
  unfold parentOf
  rw [ht, hdr]
  have hz : (H.hmac512 (key.drop 64) (2 :: (makePublicKey key ++ leBytes 4 i.toNat))).length = 64 := hH.hmac512 _ _
  generalize H.hmac512 (key.drop 64) (2 :: (makePublicKey key ++ leBytes 4 i.toNat)) = z at *
  have b1 := leNat_lt (z.take 28)
  have b2 := leNat_lt (z.drop 32)
  have b3 := leNat_lt (key.take 32)
  have b4 := leNat_lt ((key.drop 32).take 32)
  simp only [List.length_take, List.length_drop, hz, hk] at b1 b2 b3 b4
  norm_num at b1 b2 b3 b4
  have e1 : leBytes 32 (leNat (c.take 32) + 2 ^ 256 - 8 * leNat (z.take 28)) = key.take 32 := by
    apply leNat_inj (by simp [leBytes_length, hk])
    rw [leNat_leBytes, h1]
    norm_num
    omega
  have e2 : leBytes 32 (leNat ((c.drop 32).take 32) + 2 ^ 256 - leNat (z.drop 32)) = (key.drop 32).take 32 := by
    apply leNat_inj (by simp [leBytes_length, hk])
    rw [leNat_leBytes, h2]
    norm_num
    omega
  dsimp only
  rw [e1, e2]
  have : key.drop 64 = (key.drop 32).drop 32 := by rw [List.drop_drop]
  rw [this, List.append_assoc, List.take_append_drop, List.take_append_drop]

/-- **C132.** For the root of any entropy and password, after any path: whoever has the extended public key of the account reached and the private key of one descendant
through soft steps can compute (`Undo` has a result, and only one) the private key of the account, and so the keys of all its descendants, those behind hardened steps
included. -/
theorem C132_account (H : Hashes) (hH : H.Ok) (entropy password : Bytes) (path soft : List UInt32) (hsoft : ∀ i ∈ soft, i.toNat < 2 ^ 31)
    (hp : path.length + soft.length < 2 ^ 26) :
    ∃ root account xpub key, FromBip39Entropy H entropy password = .ok root ∧ derivePath H makePublicKey root path = .ok account ∧ Public makePublicKey account = .ok xpub ∧
      derivePath H makePublicKey root (path ++ soft) = .ok key ∧ (∃ a, Undo H xpub soft key a) ∧
      ∀ a, Undo H xpub soft key a → a = account ∧ ∀ other, derivePath H makePublicKey a other = derivePath H makePublicKey root (path ++ other) := by
  obtain ⟨root, e1, hr, -⟩ := C32_bip39_root_key H hH entropy password
  obtain ⟨account, xpub, key, -, d1, d2, d3, -, -⟩ := C35_soft_path H hH root hr path soft hsoft hp
  have split : ∀ (p q : List UInt32) (k a : Bytes), derivePath H makePublicKey k p = .ok a →
      derivePath H makePublicKey k (p ++ q) = derivePath H makePublicKey a q := by
    intro p
    induction p with
    | nil => intro q k a h; injection h with h; subst h; rfl
    | cons i p ih =>
      intro q k a h
      rw [derivePath] at h
      rw [List.cons_append, derivePath]
      cases hd : Derive H makePublicKey k i with
      | ok c => rw [hd] at h; exact ih q c a h
      | err m => rw [hd] at h; cases h
      | panic => rw [hd] at h; cases h
  suffices main : Undo H xpub soft key account by
    refine ⟨root, account, xpub, key, e1, d1, d2, d3, ⟨_, main⟩, fun a ha => ?_⟩
    obtain rfl := ha.unique main
    exact ⟨rfl, fun other => (split path other root a d1).symm⟩
  clear e1
  induction soft generalizing path account xpub with
  | nil =>
    rw [List.append_nil, d1] at d3
    obtain rfl := Res.ok.inj d3
    exact .nil _ _
  | cons i soft ih =>
    simp only [List.length_cons] at hp
    have hcat : path ++ i :: soft = (path ++ [i]) ++ soft := by simp
    rw [hcat] at d3
    obtain ⟨child, xpub', key', -, f1, f2, f3, -, -⟩ := C35_soft_path H hH root hr (path ++ [i]) soft (fun j hj => hsoft j (List.mem_cons_of_mem _ hj)) (by simp; omega)
    have g : derivePath H makePublicKey account [i] = .ok child := by rw [← split path [i] root account d1]; exact f1
    have g' : Derive H makePublicKey account i = .ok child := by
      rw [derivePath] at g
      cases hd : Derive H makePublicKey account i with
      | ok c => rw [hd] at g; exact g
      | err m => rw [hd] at g; cases g
      | panic => rw [hd] at g; cases g
    have hi := hsoft i (List.mem_cons_self ..)
    obtain ⟨account', x2, child', y2, k1, k2, k3, k4, k5⟩ := C35_soft_path H hH root hr path [i] (by simpa using hi) (by simp; omega)
    obtain rfl := Res.ok.inj (k1.symm.trans d1)
    obtain rfl := Res.ok.inj (k2.symm.trans d2)
    obtain rfl := Res.ok.inj (k3.symm.trans f1)
    obtain rfl := Res.ok.inj (k4.symm.trans f2)
    obtain ⟨a, ha, hal, -⟩ := C34_path_scalars H hH makePublicKey root hr path (by omega)
    obtain rfl := Res.ok.inj (ha.symm.trans d1)
    have hpar := C132_parent H hH a child' x2 hal i hi g' d2
    have ht := ih (path ++ [i]) (fun j hj => hsoft j (List.mem_cons_of_mem _ hj)) (by simp; omega) child' y2 f1 f2 d3
    have hpc : PublicChild H x2 i.toNat y2 := by
      cases k5 with
      | cons h t => cases t; exact h
    rw [← hpar]
    exact .cons hpc ht

open Cbor TxSpec Transaction TxBuilder Addr Spec in
open Ledger (read refOf outOf Env UTxO) in
/-- **C132, what it means.** The key computed in this way spends what has been paid to the other addresses of the account: with `path` the account, `soft` the address whose
key was given away and `other` any other address, a payment made with the key derived from the computed account key is accepted by the ledger wherever the owner's is. -/
theorem C132_spends (H : Hashes) (hH : H.Ok) (blake224 blake256 : Bytes → Bytes) (h224 : ∀ m, (blake224 m).length = 28) (h256 : ∀ m, (blake256 m).length = 32)
    (entropy password : Bytes) (path soft other : List UInt32) (hsoft : ∀ i ∈ soft, i.toNat < 2 ^ 31) (hp : path.length + soft.length < 2 ^ 26)
    (hp' : path.length + other.length < 2 ^ 26) (main : Bool) (stake : Option (Bool × Bytes)) (hst : ∀ x ∈ stake, x.2.length = 28) :
    ∃ root account xpub given mine c pk text, FromBip39Entropy H entropy password = .ok root ∧ derivePath H makePublicKey root path = .ok account ∧
      Public makePublicKey account = .ok xpub ∧ derivePath H makePublicKey root (path ++ soft) = .ok given ∧
      derivePath H makePublicKey root (path ++ other) = .ok mine ∧ (packageCrypto H blake256).publicKey mine = .ok pk ∧
      credOf blake224 mine = .ok c ∧ Addr.string (addressFor main c stake) = .ok text ∧
      ∃ a stolen, Undo H xpub soft given a ∧ derivePath H makePublicKey a other = .ok stolen ∧
      ∀ strict spare, ∃ addr, Addr.NewAddress strict text spare = .ok addr ∧
        ∀ (b : Builder) (bs : Bytes) (j : Nat) (amount : UInt64) (u : UTxO) (v : Ledger.TxView), BuilderFits b → Finishes (packageCrypto H blake256) b bs →
          b.body.outputs[j]? = some ⟨addr, amount⟩ → j < 2 ^ 16 → read bs = some v →
          let u' := Ledger.apply (ledgerCrypto H blake224 blake256) u v
          let i := NewTxInput (Hex.encode (blake256 v.body)) (UInt16.ofNat j) amount
          ∀ network slot s t bs', Payment blake224 (packageCrypto H blake256) stolen pk network slot [i] s t bs' →
            Ledger.Valid (ledgerCrypto H blake224 blake256) (envOf s.protocol network slot) u' bs' := by
  obtain ⟨root, account, xpub, given, e1, e2, e3, e4, ⟨a, ha⟩, hall⟩ := C132_account H hH entropy password path soft hsoft hp
  obtain ⟨root', mine, c, text, pk, f1, f2, f3, f4, f5, f6⟩ :=
    C110_spendable H hH blake224 blake256 h224 h256 entropy password (path ++ other) (by rw [List.length_append]; exact hp') main stake hst
  obtain rfl := Res.ok.inj (e1.symm.trans f1)
  refine ⟨root, account, xpub, given, mine, c, pk, text, e1, e2, e3, e4, f2, f5, f3, f4, a, mine, ha, ?_, fun strict spare => ?_⟩
  · rw [(hall a ha).2 other]; exact f2
  obtain ⟨addr, g1, g2⟩ := f6 strict spare
  exact ⟨addr, g1, fun b bs j amount u v h1 h2 h3 h4 h5 => (g2 b bs j amount u v h1 h2 h3 h4 h5).2⟩

/-- C132: the account 1852'/1815'/0' of CIP-1852, the key of its external address 7 given away. The index is soft, the path short. -/
example : (∀ i ∈ [(0 : UInt32), 7], i.toNat < 2 ^ 31) ∧ [(0x80000000 + 1852 : UInt32), 0x80000000 + 1815, 0x80000000].length + [(0 : UInt32), 7].length < 2 ^ 26 := by decide

/-- `parentOf` is not for hardened indices: with a MAC that tells messages apart by their first byte, the child of the key `2 ^ 254` with index `2 ^ 31` leads elsewhere. -/
example : ∃ (H : Hashes) (key child xpub : Bytes), H.Ok ∧ Clamped key ∧ Derive H makePublicKey key 0x80000000 = .ok child ∧ Public makePublicKey key = .ok xpub ∧
    parentOf H xpub (2 ^ 31) child ≠ key := by
  let H : Hashes := ⟨zeroHashes.sha512, zeroHashes.sha256, fun _ m => if m.headD 0 = 0 then leBytes 64 1 else List.replicate 64 0, zeroHashes.pbkdf2⟩
  have hH : H.Ok := ⟨zeroHashes_ok.sha512, zeroHashes_ok.sha256, fun k m => by show (if _ then _ else _ : Bytes).length = 64; split <;> simp [leBytes_length], zeroHashes_ok.pbkdf2⟩
  obtain ⟨child, e, hl, h1, -, -⟩ := C33_derive H hH makePublicKey (leBytes 96 (2 ^ 254)) (by decide +kernel) 0x80000000
  refine ⟨H, leBytes 96 (2 ^ 254), child, _, hH, ⟨by decide +kernel, by decide +kernel, by decide +kernel, by decide +kernel⟩, e, rfl, fun h => ?_⟩
  have hm : macInput 0 2 makePublicKey (leBytes 96 (2 ^ 254)) 0x80000000 = 0 :: ((leBytes 96 (2 ^ 254)).take 64 ++ leBytes 4 (0x80000000 : UInt32).toNat) := rfl
  have hz : H.hmac512 ((leBytes 96 (2 ^ 254)).drop 64) (macInput 0 2 makePublicKey (leBytes 96 (2 ^ 254)) 0x80000000) = leBytes 64 1 := by rw [hm]; rfl
  rw [hz] at h1
  have h2 : leNat (child.take 32) = 2 ^ 254 + 8 := by rw [h1]; decide +kernel
  have h3 := congrArg (fun k : Bytes => leNat (k.take 32)) h
  simp only [parentOf] at h3
  rw [List.append_assoc, List.take_append_of_le_length (by rw [leBytes_length]), List.take_of_length_le (by rw [leBytes_length]), leNat_leBytes, h2] at h3
  have h4 : ∀ k m, H.hmac512 k (2 :: m) = List.replicate 64 0 := fun _ _ => rfl
  rw [h4] at h3
  revert h3
  decide +kernel

end Cardano.Props
