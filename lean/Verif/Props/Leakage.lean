import Verif.Bip32.AccessesProof
import Verif.Props.Concurrent
/-!
# Property C147: which memory is accessed does not depend on secrets

The functions that work on secret keys, as sequences of accesses to memory. Whatever the arrays hold, the same places are read, written and declared in the same
order; what the functions leave in their results is what the package returns.
-/
set_option autoImplicit false

namespace Cardano.Props
open Ed Ed.Ptr Ed.Ptr.Prog Bip32

/-- What array `o` holds in its first `n` places. -/
def arrayAt (m : Mem) (o n : Nat) : Bytes := (List.range n).map fun i => UInt8.ofNat (m.cell o 0 i).toNat

/-- The program makes the same accesses in the same order whatever the memory holds. -/
def AccessesFixed {α : Type} (p : Prog α) : Prop := ∀ m m' : Mem, m.next = m'.next → p.trace m = p.trace m'

theorem arrayAt_eq (m : Mem) (o n : Nat) : arrayAt m o n = Acc.bytes m o 0 n := by simp [arrayAt, Acc.bytes]

/-- **C147** (signing). The accesses depend neither on the key nor on the bytes of the message, only on where they are and how long the message is. -/
theorem C147_sign (H : Hashes) (prv message n : Nat) : AccessesFixed (Acc.Sign H prv message n) := fun m m' h =>
  (Acc.sameNew_Sign (P := fun _ => True) H prv message n).same.trace m m' h fun _ _ => trivial

/-- **C147** (public keys). -/
theorem C147_public (sk : Nat) : AccessesFixed (Acc.MakePublicKey sk) := fun m m' h =>
  (Acc.sameNew_MakePublicKey (P := fun _ => True) sk).same.trace m m' h fun _ _ => trivial

/-- **C147** (derivation). Of the index it matters only whether it is hardened. -/
theorem C147_derive (H : Hashes) (key n : Nat) (index index' : UInt32) (hi : index < 0x80000000 ↔ index' < 0x80000000) (m m' : Mem) (hm : m.next = m'.next) :
    (Acc.Derive H key n index).trace m = (Acc.Derive H key n index').trace m' := by
  have : isHardened index = isHardened index' := by
    unfold isHardened
    rw [decide_eq_decide, ge_iff_le, ge_iff_le, ← UInt32.not_lt, ← UInt32.not_lt, hi]
  exact (Acc.sameNew_Derive (P := fun _ => True) H key n this).same.trace m m' hm fun _ _ => trivial

/-- **C147** (root keys). -/
theorem C147_root (H : Hashes) (seed entropy n password k : Nat) :
    AccessesFixed (Acc.NewXPrv H seed) ∧ AccessesFixed (Acc.FromBip39Entropy H entropy n password k) :=
  ⟨fun m m' h => (Acc.sameNew_NewXPrv (P := fun _ => True) H seed).same.trace m m' h fun _ _ => trivial,
    fun m m' h => (Acc.sameNew_FromBip39Entropy (P := fun _ => True) H entropy n password k).same.trace m m' h fun _ _ => trivial⟩

/-- A run whose result is an array that was not there before, holding `v`, and that leaves all that was there as it was. -/
structure Leaves (p : Prog Nat) (m : Mem) (n : Nat) (v : Res Bytes) : Prop where
  new : m.next ≤ (p.run m).1
  value : v = .ok (arrayAt (p.run m).2 (p.run m).1 n)
  kept : ∀ o f i, o < m.next → (p.run m).2.cell o f i = m.cell o f i

/-- **C147** (results). These accesses compute what the package's functions return, with the tables of the package as they are in `const.go`; keys, seeds and messages are
left as they are. -/
theorem C147_results (H : Hashes) (hH : H.Ok) (m : Mem) (hm : TablesIntact m) (key message : Nat) (hk : key < m.next) (hmsg : message < m.next) (len n : Nat) (hl : 64 ≤ len)
    (index : UInt32) :
    Leaves (Acc.Sign H key message n) m 64 (Sign H (arrayAt m key len) (arrayAt m message n)) ∧
    Leaves (Acc.MakePublicKey key) m 32 (MakePublicKey (arrayAt m key len)) ∧
    Leaves (Acc.Derive H key len index) m 96 (Derive H makePublicKey (arrayAt m key len) index) ∧
    Leaves (Acc.NewXPrv H key) m 96 (NewXPrv H (arrayAt m key 32)) ∧
    Leaves (Acc.FromBip39Entropy H key len message n) m 96 (FromBip39Entropy H (arrayAt m key len) (arrayAt m message n)) := by
  have g := (tablesIntact_iff m).1 hm
  have keep : ∀ {p : Prog Nat}, (∀ P : Nat → Prop, Acc.SameNew P p p) → ∀ o f i, o < m.next → (p.run m).2.cell o f i = m.cell o f i := fun h o f i ho =>
    (Acc.frame_of (w := m.next) m fun P _ => (h P).same).2 o f i ho (Nat.ne_of_lt ho)
  simp only [arrayAt_eq]
  have a1 := Acc.gives_Sign hH (n := n) g hk hmsg hl
  have a2 := Acc.gives_MakePublicKey (Q := fun o m' => m.next ≤ o ∧ MakePublicKey (Acc.bytes m key 0 len) = .ok (Acc.bytes m' o 0 32)) g hk fun m' _ _ b =>
    ⟨Nat.le_refl _, by rw [MakePublicKey, if_neg (by rw [Acc.bytes_length]; omega), b, makePublicKey, Acc.bytes_take (by omega)]⟩
  have a3 := Acc.gives_Derive hH (index := index) g hk hl
  have a4 := Acc.gives_NewXPrv hH (m := m) hk
  have a5 := Acc.gives_FromBip39Entropy hH (entropy := key) (n := len) (password := message) (k := n) (m := m)
  exact ⟨⟨a1.1, by rw [arrayAt_eq]; exact a1.2.2, keep fun _ => Acc.sameNew_Sign ..⟩, ⟨a2.1, by rw [arrayAt_eq]; exact a2.2, keep fun _ => Acc.sameNew_MakePublicKey ..⟩,
    ⟨a3.1, by rw [arrayAt_eq]; exact a3.2.2, keep fun _ => Acc.sameNew_Derive _ _ _ rfl⟩, ⟨a4.1, by rw [arrayAt_eq]; exact a4.2.2, keep fun _ => Acc.sameNew_NewXPrv ..⟩,
    ⟨a5.1, by rw [arrayAt_eq]; exact a5.2.2, keep fun _ => Acc.sameNew_FromBip39Entropy ..⟩⟩

theorem doubleStep_trace (r ai t u : Nat) (da db : Int) (m : Mem) : (P.doubleStep r ai t u da db).trace m ≠ [] := by
  rw [P.doubleStep, trace_bind, P.projDouble, trace_bind]
  exact List.cons_ne_nil _ _

/-- **C147** (verification is different). Checking a signature is not of this kind: the accesses tell the numbers 0 and 1 in the signature apart. It works on public values only. -/
theorem C147_verification (r A : Nat) (b : Bytes) (hb : b = List.replicate 32 0) (m : Mem) :
    (P.GeDoubleScalarMultVartime r (List.replicate 32 0) A b).trace m ≠ (P.GeDoubleScalarMultVartime r (1 :: List.replicate 31 0) A b).trace m := by
  subst hb
  have h0 : ((List.range 256).reverse.dropWhile fun i => lget (slide (List.replicate 32 0)) i = 0 && lget (slide (List.replicate 32 0)) i = 0) = [] := by decide +kernel
  have h1 : ((List.range 256).reverse.dropWhile fun i => lget (slide (1 :: List.replicate 31 0)) i = 0 && lget (slide (List.replicate 32 0)) i = 0) = [0] := by decide +kernel
  simp only [P.GeDoubleScalarMultVartime, trace_bind, h0, h1, each, ne_eq, List.append_cancel_left_eq]
  intro h
  exact doubleStep_trace _ _ _ _ _ _ _ (List.append_eq_nil_iff.1 h.symm).1

/-- The memory at the start of a program with a key and a message of the program in two arrays. -/
def withKey (key message : Bytes) : Mem :=
  ⟨270, fun o f i => if o = 268 then ((key.getD i 0).toNat : Int) else if o = 269 then ((message.getD i 0).toNat : Int) else start.cell o f i⟩

theorem withKey_tables (key message : Bytes) : TablesIntact (withKey key message) :=
  C104_start.of_cells (show 268 ≤ 270 by decide) fun o f i ho => by
    have : o < 268 := ho
    simp only [withKey]
    rw [if_neg (by omega), if_neg (by omega)]

theorem arrayAt_of_getD {m : Mem} {o n : Nat} {b : Bytes} (hb : b.length = n) (h : ∀ i, m.cell o 0 i = ((b.getD i 0).toNat : Int)) : arrayAt m o n = b := by
  refine List.ext_getElem (by simp [arrayAt, hb]) fun i h1 h2 => ?_
  simp only [arrayAt, List.getElem_map, List.getElem_range, h, List.getD_eq_getElem?_getD, List.getElem?_eq_getElem h2, Option.getD_some, Int.toNat_natCast, UInt8.ofNat_toNat]

theorem withKey_key (key message : Bytes) (i : Nat) : (withKey key message).cell 268 0 i = ((key.getD i 0).toNat : Int) := by
  simp [withKey]

theorem withKey_message (key message : Bytes) (i : Nat) : (withKey key message).cell 269 0 i = ((message.getD i 0).toNat : Int) := by
  simp [withKey]

/-- Signing different messages of the same length with different keys: the same accesses, and in both runs the signature that the package returns. -/
theorem C147_two_keys (H : Hashes) (hH : H.Ok) (key key' message message' : Bytes) (hk : key.length = 96) (hk' : key'.length = 96) (hm : message'.length = message.length) :
    (Acc.Sign H 268 269 message.length).trace (withKey key message) = (Acc.Sign H 268 269 message.length).trace (withKey key' message') ∧
    Leaves (Acc.Sign H 268 269 message.length) (withKey key message) 64 (Sign H key message) ∧
    Leaves (Acc.Sign H 268 269 message.length) (withKey key' message') 64 (Sign H key' message') := by
  refine ⟨C147_sign H _ _ _ _ _ rfl, ?_, ?_⟩
  · have := (C147_results H hH _ (withKey_tables key message) 268 269 (show 268 < 270 by decide) (show 269 < 270 by decide) 96 message.length (by decide) 0).1
    rwa [arrayAt_of_getD hk fun i => withKey_key .., arrayAt_of_getD rfl fun i => withKey_message ..] at this
  · have := (C147_results H hH _ (withKey_tables key' message') 268 269 (show 268 < 270 by decide) (show 269 < 270 by decide) 96 message.length (by decide) 0).1
    rwa [arrayAt_of_getD hk' fun i => withKey_key .., arrayAt_of_getD hm fun i => withKey_message ..] at this

example : (Acc.Sign zeroHashes 268 269 5).trace (withKey (List.replicate 96 7) [1, 2, 3, 4, 5]) = (Acc.Sign zeroHashes 268 269 5).trace (withKey (List.replicate 96 8) [6, 7, 8, 9, 10]) :=
  (C147_two_keys zeroHashes zeroHashes_ok (List.replicate 96 7) (List.replicate 96 8) [1, 2, 3, 4, 5] [6, 7, 8, 9, 10] List.length_replicate List.length_replicate rfl).1

end Cardano.Props
