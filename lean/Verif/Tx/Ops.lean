import Verif.Tx.Model
/-!
# Sequences of calls on a builder
-/
set_option autoImplicit false

namespace Cardano.TxBuilder

/-- One call made by a user of the package. -/
inductive Op where
  | addInputs (l : List TxInput)
  | addOutputs (l : List TxOutput)
  | setTTL (ttl : UInt32)
  | sign (xprv : Bytes)
  | minFee
  | addChange (addr : Address)
  | build
  /-- `tb.Tx().Metadata = m` -/
  | setMetadata (m : Option Metadata)
  /-- `Bytes()`, `Hex()` or `Fee()` of a transaction obtained from the builder -/
  | bytesOf (h : Handle)

/-- The builder after one call (also a failing one). -/
def step (C : Crypto) (b : Builder) : Op → Builder
  | .addInputs l => AddInputs b l
  | .addOutputs l => AddOutputs b l
  | .setTTL n => SetTTL b n
  | .sign k => Sign b k
  | .minFee => (MinFee C b).2
  | .addChange a => AddChangeIfNeeded C b a
  | .build => (Build C b).2
  | .setMetadata m => setMetadata b m
  | .bytesOf h => (bytesOf C b h).2

/-- The builder after a sequence of calls. -/
def run (C : Crypto) (b : Builder) (ops : List Op) : Builder := ops.foldl (step C) b

end Cardano.TxBuilder
