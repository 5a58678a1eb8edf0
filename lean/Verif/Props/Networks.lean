import Verif.Props.Asked
import Verif.Props.Destinations
/-!
# Property C133: a transaction is accepted on one network only
-/
set_option autoImplicit false

namespace Cardano.Props
open Cbor TxSpec Transaction TxBuilder Addr Bip32 Spec
open Ledger (read refOf outOf Env UTxO)

/-- The low half of the first byte is the low half of the network id that `NetworkInfo()` gives. -/
theorem bytes_network (a : Address) (h1 : ∀ b, a ≠ .byron b) : ∃ h rest, Addr.bytes a = h :: rest ∧ h.toNat % 16 = (networkInfo a).networkId.toNat % 16 := by
  have k : ∀ n p : UInt8, ((p <<< 4 : UInt8) ||| (n &&& 0xf)).toNat % 16 = n.toNat % 16 := by
    intro n p
    have a1 : ∀ p : UInt8, (p <<< 4).toNat % 16 = 0 := forall_byte (by decide +kernel)
    have a2 : ∀ n : UInt8, (n &&& 0xf).toNat = n.toNat % 16 := forall_byte (by decide +kernel)
    rw [UInt8.toNat_or, show (16 : Nat) = 2 ^ 4 from rfl, Nat.or_mod_two_pow, a2]
    rw [show (2 : Nat) ^ 4 = 16 from rfl, a1, Nat.zero_or, Nat.mod_mod]
  have two : ∀ p s : UInt8, ∃ q : UInt8, (p <<< 4) ||| (s <<< 5) = q <<< 4 := by
    intro p s
    refine ⟨p ||| (s <<< 1), ?_⟩
    have : ∀ s : UInt8, s <<< 5 = (s <<< 1) <<< 4 := forall_byte (by decide +kernel)
    rw [this, UInt8.shiftLeft_or]
  have const : ∀ (c p : UInt8), c = 6 ∨ c = 4 ∨ c = 14 → ∃ q : UInt8, (c <<< 4) ||| (p <<< 4) = q <<< 4 := fun c p _ => ⟨c ||| p, by rw [UInt8.shiftLeft_or]⟩
  cases a with
  | base n p s =>
    obtain ⟨q, hq⟩ := two p.kind s.kind
    exact ⟨_, _, rfl, by rw [hq]; exact k _ _⟩
  | enterprise n p =>
    obtain ⟨q, hq⟩ := const 6 p.kind (by decide)
    exact ⟨_, _, rfl, by rw [show (0x60 : UInt8) = (6 : UInt8) <<< 4 from rfl, hq]; exact k _ _⟩
  | pointer n p s =>
    obtain ⟨q, hq⟩ := const 4 p.kind (by decide)
    exact ⟨_, _, rfl, by rw [show (0x40 : UInt8) = (4 : UInt8) <<< 4 from rfl, hq]; exact k _ _⟩
  | reward n s =>
    obtain ⟨q, hq⟩ := const 14 s.kind (by decide)
    exact ⟨_, _, rfl, by rw [show (0xe0 : UInt8) = (14 : UInt8) <<< 4 from rfl, hq]; exact k _ _⟩
  | byron b => exact absurd rfl (h1 b)

/-- **C133, which network.** If a ledger accepts a finished transaction, every address that was to be paid, change included, is a Shelley address that can be paid, and
reports the network of that ledger. -/
theorem C133_network (H : Hashes) (hH : H.Ok) (blake224 blake256 : Bytes → Bytes) (h256 : ∀ m, (blake256 m).length = 32)
    (p : Protocol) (ks : List Bytes) (ops : List Op) (u : UTxO) (e : Env) (bs : Bytes)
    (hf : BuilderFits (run (packageCrypto H blake256) (NewTxBuilder p ks) ops))
    (hy : Finishes (packageCrypto H blake256) (run (packageCrypto H blake256) (NewTxBuilder p ks) ops) bs)
    (ha : Ledger.Valid (ledgerCrypto H blake224 blake256) e u bs) (op : Op) (hop : op ∈ ops) (a : Address) (hpay : PaysInto a op) :
    (∀ b, a ≠ .byron b) ∧ (∀ n c, a ≠ .reward n c) ∧ (networkInfo a).networkId.toNat % 16 = e.network := by
  have hb : ∀ b, a ≠ .byron b := by
    rintro b rfl
    exact (C105_byron_rejected H hH blake224 blake256 h256 p ks ops b op hop hpay bs hf hy).2 e u ha
  have hr : ∀ n c, a ≠ .reward n c := by
    rintro n c rfl
    obtain ⟨h, b', k, h1, -⟩ := hy
    exact C105_reward_reported (packageCrypto H blake256) p ks ops n c op hop hpay h (by rw [h1])
  refine ⟨hb, hr, ?_⟩
  obtain ⟨o, ho, rfl⟩ := paysInto_output (packageCrypto H blake256) p ks ops _ op hop hpay
  obtain ⟨v, hv, ha⟩ := ha
  have hout := (finish_read H hH blake256 h256 _ bs hf hy v hv).2.1
  obtain ⟨h, rest, e1, e2⟩ := ha.network (outOf o) (by rw [hout]; exact List.mem_map_of_mem ho)
  obtain ⟨h', rest', g1, g2⟩ := bytes_network o.address hb
  have e1 : Addr.bytes o.address = h :: rest := e1
  rw [g1] at e1
  injection e1 with e1 _
  rw [← g2, e1, e2]

/-- **C133.** A transaction that pays anything and is accepted on one network is accepted on no other, whatever is unspent there, whatever the protocol parameters, the slot
and the cryptography: the keys are the same on all networks, and the signatures do not name one. -/
theorem C133_one_network (H : Hashes) (hH : H.Ok) (blake224 blake256 : Bytes → Bytes) (h256 : ∀ m, (blake256 m).length = 32)
    (p : Protocol) (ks : List Bytes) (ops : List Op) (u : UTxO) (e : Env) (bs : Bytes)
    (hf : BuilderFits (run (packageCrypto H blake256) (NewTxBuilder p ks) ops))
    (hy : Finishes (packageCrypto H blake256) (run (packageCrypto H blake256) (NewTxBuilder p ks) ops) bs)
    (ha : Ledger.Valid (ledgerCrypto H blake224 blake256) e u bs) (hpays : ∃ op ∈ ops, ∃ a, PaysInto a op)
    (LC : Ledger.Crypto) (e' : Env) (hne : e'.network ≠ e.network) (u' : UTxO) : ¬ Ledger.Valid LC e' u' bs := by
  obtain ⟨op, hop, a, hpay⟩ := hpays
  obtain ⟨o, ho, rfl⟩ := paysInto_output (packageCrypto H blake256) p ks ops _ op hop hpay
  obtain ⟨v, hv, ha⟩ := ha
  rintro ⟨v', hv', ha'⟩
  rw [hv] at hv'
  obtain rfl := Option.some.inj hv'
  have hout := (finish_read H hH blake256 h256 _ bs hf hy v hv).2.1
  have hm : outOf o ∈ v.outputs := by rw [hout]; exact List.mem_map_of_mem ho
  obtain ⟨h, rest, e1, e2⟩ := ha.network _ hm
  obtain ⟨h', rest', g1, g2⟩ := ha'.network _ hm
  rw [e1] at g1
  injection g1 with g1 _
  exact hne (by rw [← e2, ← g2, g1])

/-- **C133, test networks.** They have one network id, and nothing else in a transaction tells them apart: where parameters, slot and unspent outputs allow, the other one
accepts it too. So the id of the network given to the addresses (`TestNet`, or any other with the same id) changes nothing in the bytes. -/
theorem C133_same_id (n n' : NetworkInfo) (h : n.networkId = n'.networkId) (p s : Cred) (ptr : StakePointer) :
    Addr.bytes (.base n p s) = Addr.bytes (.base n' p s) ∧ Addr.bytes (.enterprise n p) = Addr.bytes (.enterprise n' p) ∧
      Addr.bytes (.pointer n p ptr) = Addr.bytes (.pointer n' p ptr) ∧ Addr.bytes (.reward n s) = Addr.bytes (.reward n' s) := by
  simp only [Addr.bytes, h, and_self]

/-- C133: the transaction of C123 is accepted on the main network (id 1), pays something, and so is not accepted on a test network (id 0). -/
example (H : Hashes) (hH : H.Ok) (blake224 blake256 : Bytes → Bytes) (h256 : ∀ m, (blake256 m).length = 32) :
    ∃ u bs, Ledger.Valid (ledgerCrypto H blake224 blake256) (envOf ⟨44, 155381, 16384, 1000000⟩ 1 999) u bs ∧
      (∃ op ∈ askedOps sampleAddr, ∃ a, PaysInto a op) ∧
      ∀ u' slot, ¬ Ledger.Valid (ledgerCrypto H blake224 blake256) (envOf ⟨44, 155381, 16384, 1000000⟩ 0 slot) u' bs := by
  obtain ⟨u, h, b', k, bs, v, hf, hb, hy, hv, ha, -⟩ := asked_accepted H hH blake224 blake256 h256
  have hpays : ∃ op ∈ askedOps sampleAddr, ∃ a, PaysInto a op := by
    refine ⟨.addChange sampleAddr, ?_, sampleAddr, rfl⟩
    unfold askedOps
    simp
  exact ⟨u, bs, ⟨v, hv, ha⟩, hpays, fun u' slot => C133_one_network H hH blake224 blake256 h256 _ _ _ u _ bs hf ⟨h, b', k, hb, hy⟩ ⟨v, hv, ha⟩ hpays _ _
    (by show (0 : Nat) ≠ 1; decide) u'⟩

end Cardano.Props
