import Verif.Cbor.Spec
import Mathlib.Algebra.BigOperators.Group.Finset.Basic
/-!
# What the ledger demands of a transaction

Written from the ledger specification (Shelley UTXO and UTXOW rules as amended by later eras, restricted to transactions that move ada between key
addresses: no certificates, withdrawals, minting, scripts or collateral) and its CDDL. Nothing here mentions the package. A transaction is a byte
string; `read` is a strict reader, it rejects more than the ledger does (only definite four-element arrays, no unknown fields).
-/
set_option autoImplicit false

namespace Cardano.Ledger
open Cbor

/-- A transaction input: transaction id and index. -/
abbrev Ref := Bytes × Nat

/-- A transaction output: address and amount. -/
abbrev Out := Bytes × Nat

/-- A transaction as the ledger sees it. -/
structure TxView where
  inputs : List Ref
  outputs : List Out
  fee : Nat
  ttl : Option Nat
  auxHash : Option Bytes
  /-- public keys and signatures -/
  witnesses : List (Bytes × Bytes)
  /-- the bytes of the body, whose hash is the transaction id -/
  body : Bytes
  /-- the bytes of the auxiliary data -/
  aux : Option Bytes
  /-- size of the transaction in bytes -/
  size : Nat
  deriving DecidableEq

/-! ## Reading -/

/-- Apply a reader to all items. -/
def all {α : Type} (f : Item → Option α) : List Item → Option (List α)
  | [] => some []
  | x :: xs =>
    match f x, all f xs with
    | some a, some as => some (a :: as)
    | _, _ => none

/-- `[transaction_id : hash32, index : uint]`. -/
def readInput : Item → Option Ref
  | .array [.bytes h, .uint n] => if h.length = 32 ∧ n < 2 ^ 16 then some (h, n) else none
  | _ => none

/-- The addresses that can stand in an output (CIP-19, Shelley types 0 to 7): header, credential of 28 bytes, and a second credential, a pointer (three to thirty
bytes), or nothing. -/
def OutputAddress (a : Bytes) : Prop :=
  ∃ h rest, a = h :: rest ∧
    (h.toNat / 16 < 4 ∧ rest.length = 56 ∨ 4 ≤ h.toNat / 16 ∧ h.toNat / 16 < 6 ∧ 31 ≤ rest.length ∧ rest.length ≤ 58 ∨ 6 ≤ h.toNat / 16 ∧ h.toNat / 16 < 8 ∧ rest.length = 28)

instance (a : Bytes) : Decidable (OutputAddress a) :=
  match a with
  | [] => .isFalse (by rintro ⟨_, _, h, _⟩; cases h)
  | h :: rest =>
    if c : (h.toNat / 16 < 4 ∧ rest.length = 56 ∨ 4 ≤ h.toNat / 16 ∧ h.toNat / 16 < 6 ∧ 31 ≤ rest.length ∧ rest.length ≤ 58 ∨ 6 ≤ h.toNat / 16 ∧ h.toNat / 16 < 8 ∧ rest.length = 28)
    then .isTrue ⟨h, rest, rfl, c⟩
    else .isFalse (by rintro ⟨_, _, e, h⟩; injection e with e1 e2; subst e1 e2; exact c h)

/-- `[address, amount : coin]`. -/
def readOutput : Item → Option Out
  | .array [.bytes a, .uint n] => if OutputAddress a ∧ n < 2 ^ 64 then some (a, n) else none
  | _ => none

/-- `[vkey : 32 bytes, signature : 64 bytes]`. -/
def readWitness : Item → Option (Bytes × Bytes)
  | .array [.bytes k, .bytes s] => if k.length = 32 ∧ s.length = 64 then some (k, s) else none
  | _ => none

/-- A map whose keys are natural numbers. -/
def pairs : List Item → Option (List (Nat × Item))
  | [] => some []
  | .uint k :: v :: rest => (pairs rest).map ((k, v) :: ·)
  | _ => none

/-- Items of an array. -/
def elements : Item → Option (List Item)
  | .array xs => some xs
  | _ => none

/-- A number. -/
def number : Item → Option Nat
  | .uint n => some n
  | _ => none

/-- A byte string. -/
def byteString : Item → Option Bytes
  | .bytes b => some b
  | _ => none

/-- The value of a field that must be there. -/
def field {α : Type} (ps : List (Nat × Item)) (k : Nat) (f : Item → Option α) : Option α := (ps.lookup k).bind f

/-- The value of a field that may be absent; `none`: unreadable. -/
def optField {α : Type} (ps : List (Nat × Item)) (k : Nat) (f : Item → Option α) : Option (Option α) :=
  match ps.lookup k with
  | none => some none
  | some x => (f x).map some

/-- The fields of a map with the given keys; no key twice. -/
def fieldsOf (keys : List Nat) : Item → Option (List (Nat × Item))
  | .map kvs =>
    match pairs kvs with
    | some ps => if (ps.map (·.1)).Nodup ∧ ∀ p ∈ ps, p.1 ∈ keys then some ps else none
    | none => none
  | _ => none

/-- Auxiliary data is null, or a map (Shelley), an array (Allegra), or tagged 259 (Alonzo). The labels and values in it are not checked. -/
def readAux (x : Item) (b : Bytes) : Option (Option Bytes) :=
  match x with
  | .simple 22 => some none
  | .map _ => some (some b)
  | .array _ => some (some b)
  | .tag 259 _ => some (some b)
  | _ => none

/-- From items to the transaction; `body` and `aux` are the bytes of the first and the last item. The flag must be true. -/
def assemble (size : Nat) (b w v x : Item) (body aux : Bytes) : Option TxView := do
  let ps ← fieldsOf [0, 1, 2, 3, 7] b
  let inputs ← field ps 0 fun i => (elements i).bind (all readInput)
  let outputs ← field ps 1 fun i => (elements i).bind (all readOutput)
  let fee ← field ps 2 number
  let ttl ← optField ps 3 number
  let auxHash ← optField ps 7 byteString
  let ws ← fieldsOf [0] w
  let wits ← optField ws 0 fun i => (elements i).bind (all readWitness)
  let aux ← readAux x aux
  match v with
  | .simple 21 => some ⟨inputs, outputs, fee, ttl, auxHash, wits.getD [], body, aux, size⟩
  | _ => none

/-- `transaction = [transaction_body, transaction_witness_set, true, auxiliary_data / null]`. -/
def read (bs : Bytes) : Option TxView :=
  match bs with
  | [] => none
  | h :: r0 =>
    if h = 0x84 then do
      let (b, r1) ← parseFirst r0
      let (w, r2) ← parseFirst r1
      let (v, r3) ← parseFirst r2
      let (x, r4) ← parseFirst r3
      if r4 = [] then assemble bs.length b w v x (r0.take (r0.length - r1.length)) r3 else none
    else none

/-! ## The rules -/

/-- Protocol parameters, network and current slot. -/
structure Env where
  minFeeA : Nat
  minFeeB : Nat
  maxTxSize : Nat
  minUTxOValue : Nat
  network : Nat
  slot : Nat

/-- The unspent outputs. -/
abbrev UTxO := Ref → Option Out

/-- The amount of an unspent output. -/
def UTxO.amount (u : UTxO) (r : Ref) : Nat := ((u r).map (·.2)).getD 0

/-- What the ledger takes from cryptography: hashes, and when a signature is valid. -/
structure Crypto where
  hash224 : Bytes → Bytes
  hash256 : Bytes → Bytes
  /-- key, message, signature -/
  validSig : Bytes → Bytes → Bytes → Prop

/-- The public key a key address asks for (CIP-19: types 0, 2, 4 and 6 have a key hash as payment credential). -/
def LockedBy (C : Crypto) (addr vkey : Bytes) : Prop :=
  ∃ h rest, addr = h :: (C.hash224 vkey ++ rest) ∧ (h.toNat / 16 = 0 ∨ h.toNat / 16 = 2 ∨ h.toNat / 16 = 4 ∨ h.toNat / 16 = 6)

/-- Size of the smallest output of the rule: amounts are compared with the parameter `minUTxOValue`. -/
def MinOutput (e : Env) (o : Out) : Prop := e.minUTxOValue ≤ o.2

/-- The UTXO and UTXOW rules. -/
structure Accepts (C : Crypto) (e : Env) (u : UTxO) (t : TxView) : Prop where
  /-- not expired -/
  ttl : ∀ n, t.ttl = some n → e.slot < n
  /-- something is spent, which makes the transaction unique -/
  nonempty : t.inputs ≠ []
  /-- what is spent exists -/
  exist : ∀ r ∈ t.inputs, (u r).isSome
  /-- the fee covers the size -/
  fee : e.minFeeA * t.size + e.minFeeB ≤ t.fee
  /-- consumed = produced; the inputs are a set -/
  conserved : ∑ r ∈ t.inputs.toFinset, u.amount r = (t.outputs.map (·.2)).sum + t.fee
  /-- no output is too small -/
  minimum : ∀ o ∈ t.outputs, MinOutput e o
  /-- all outputs are on this network -/
  network : ∀ o ∈ t.outputs, ∃ h rest, o.1 = h :: rest ∧ h.toNat % 16 = e.network
  /-- not too large -/
  size : t.size ≤ e.maxTxSize
  /-- all witnesses sign the transaction id -/
  signatures : ∀ w ∈ t.witnesses, C.validSig w.1 (C.hash256 t.body) w.2
  /-- everything spent is unlocked by a witness -/
  unlocked : ∀ r ∈ t.inputs, ∀ o, u r = some o → ∃ w ∈ t.witnesses, LockedBy C o.1 w.1
  /-- the auxiliary data is the one the body commits to -/
  aux : t.auxHash = t.aux.map C.hash256

/-- The ledger accepts these bytes as a transaction. -/
def Valid (C : Crypto) (e : Env) (u : UTxO) (bs : Bytes) : Prop := ∃ t, read bs = some t ∧ Accepts C e u t

/-! ## Native tokens

Since the Mary era an unspent output holds tokens beside ada. The transactions read here (outputs are `[address, coin]`, and there is no field for minting) produce none.
-/

/-- The tokens held by the unspent outputs: how many of an asset (policy id and name). -/
abbrev Tokens := Ref → Bytes × Bytes → Nat

/-- The rules with tokens: for every asset, what is consumed is produced, that is nothing. -/
structure AcceptsTokens (C : Crypto) (e : Env) (u : UTxO) (k : Tokens) (t : TxView) : Prop where
  ada : Accepts C e u t
  tokens : ∀ asset, ∑ r ∈ t.inputs.toFinset, k r asset = 0

/-- The ledger with tokens accepts these bytes. -/
def ValidTokens (C : Crypto) (e : Env) (u : UTxO) (k : Tokens) (bs : Bytes) : Prop := ∃ t, read bs = some t ∧ AcceptsTokens C e u k t

/-- What is unspent afterwards: the outputs of the transaction, under its id, and what it did not spend. -/
def apply (C : Crypto) (u : UTxO) (t : TxView) : UTxO := fun r =>
  if r.1 = C.hash256 t.body then t.outputs[r.2]? else if r ∈ t.inputs then none else u r

end Cardano.Ledger
