import Verif.Ledger.Spec
/-!
# What the ledger allows as metadata

The rule that `Ledger/Spec` leaves out. A specification, from the Shelley and Allegra CDDL and the rule `validMetadata`:
metadata is a map from labels (natural numbers) to values; a value is an integer, a byte string or a text of at most 64 bytes,
a list of values or a map of values to values. There are no truth values, nulls or floats. The native scripts that can stand
beside the metadata since Allegra, and what is inside tag 259, are not looked at: the real ledger accepts less.
-/
set_option autoImplicit false

namespace Cardano.Ledger
open Cbor

/-- The bytes are the UTF-8 form of a text. -/
def Utf8 (s : Bytes) : Prop := ∃ t : String, t.toUTF8.data.toList = s

/-- `transaction_metadatum` -/
inductive Metadatum : Item → Prop
  | uint (n : Nat) : Metadatum (.uint n)
  | nint (n : Nat) : Metadatum (.nint n)
  | bytes (b : Bytes) (h : b.length ≤ 64) : Metadatum (.bytes b)
  | text (s : Bytes) (h : s.length ≤ 64) (hu : Utf8 s) : Metadatum (.text s)
  | array (xs : List Item) (h : ∀ x ∈ xs, Metadatum x) : Metadatum (.array xs)
  | map (kvs : List Item) (h : ∀ x ∈ kvs, Metadatum x) : Metadatum (.map kvs)

/-- `metadata = { * transaction_metadatum_label => transaction_metadatum }` -/
def LabelMap : Item → Prop
  | .map kvs => ∃ ps, pairs kvs = some ps ∧ ∀ p ∈ ps, Metadatum p.2
  | _ => False

/-- Auxiliary data: Shelley, Allegra, Alonzo. -/
def AuxData : Item → Prop
  | .map kvs => LabelMap (.map kvs)
  | .array [m, .array _] => LabelMap m
  | .tag 259 _ => True
  | _ => False

/-- The rule: auxiliary data, if there is any, has the prescribed form. -/
def MetadataRule (t : TxView) : Prop := ∀ m, t.aux = some m → ∃ x, parse m = some x ∧ AuxData x

/-- The bytes are a transaction that the ledger accepts, the metadata being checked as well. -/
def ValidMetadata (C : Crypto) (e : Env) (u : UTxO) (bs : Bytes) : Prop := ∃ t, read bs = some t ∧ Accepts C e u t ∧ MetadataRule t

end Cardano.Ledger
