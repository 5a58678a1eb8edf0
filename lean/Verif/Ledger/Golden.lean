import Verif.Ledger.Spec
import Verif.Tx.Golden
/-!
# The golden transactions of the repository, read by the ledger's reader

Tests of the reader, not proofs. Both transactions have an output on the main network and change on the test network (C80).
-/
set_option autoImplicit false

namespace Cardano.Ledger
open TxBuilder

/-- testdata/transaction/tx_builder/golden/raw_tx_base.golden -/
def goldenBase : Bytes := hexLit "84a40081825820fcbc18c64cdf133f33dd319c5105dc7c4972f2d646ae276fbd00cf7f39f8c38000018282583901a597e3dc6a2f0b110c31c42abf0965b9705dd3f291c6091a277b36970819b5831950cb576926eaf9e74706ae43d251a7bf8906a9e1a140a31a004c4b4082583900d25d4ec5f9e13219b4ea8d5d3c6c849b2b2efbcc0c301cca492837a5f798d9772e70e1857607d45339c32e415f05e7250b5df2d06bebba741a0049ba73021a000290cd031a034b50f7a10081825820f623f6c21958349e8d3c2c6c7e03eacddefd085f6b26730d50e203b3c36c1ea05840004a496fb23d3fa701fb3beed2564396222397041324904f5eec10ffe7b16b923cd0d2fa69c4395603a7870a8046378265216e4a03b5d6efd501a55a3e58b001f5f6"

/-- testdata/transaction/tx_builder/golden/raw_tx_ent.golden -/
def goldenEnt : Bytes := hexLit "84a40081825820fcbc18c64cdf133f33dd319c5105dc7c4972f2d646ae276fbd00cf7f39f8c38000018282581d61a597e3dc6a2f0b110c31c42abf0965b9705dd3f291c6091a277b36971a004c4b4082583900d25d4ec5f9e13219b4ea8d5d3c6c849b2b2efbcc0c301cca492837a5f798d9772e70e1857607d45339c32e415f05e7250b5df2d06bebba741a0049bf43021a00028bfd031a034b50f7a10081825820f623f6c21958349e8d3c2c6c7e03eacddefd085f6b26730d50e203b3c36c1ea058403e54c3c618143a1b59324e5e79a054f4bece1dec3a26cf574af31521a2bbd11a72bc17852ff791e196a64ee74f8d8aa90755f5f89869aea9937e772e823ed60ff5f6"

/-- Amounts, fee, time to live (0 if absent), number of witnesses, size, and the network of each output. -/
def summary (bs : Bytes) : List Nat × List Nat :=
  match read bs with
  | some t => (t.outputs.map (·.2) ++ [t.fee, t.ttl.getD 0, t.witnesses.length, t.size], t.outputs.map fun o => (o.1.headD 0).toNat % 16)
  | none => ([], [])

#guard summary goldenBase = ([5000000, 4831859, 168141, 55267575, 1, 290], [1, 0])
#guard summary goldenEnt = ([5000000, 4833091, 166909, 55267575, 1, 262], [1, 0])

end Cardano.Ledger
