import Verif.Hash.Hmac
import Verif.Hash.Blake2b
import Verif.Props.Sign
import Verif.Json.Decode
import Verif.Tx.Golden
/-!
# The golden transactions, from the entropy to the signed bytes

`TestTxBuilderRaw` (tx/tx_builder_test.go:109-199) run on the model: JSON parameters, PBKDF2, derivations, public keys, Blake2b, addresses, fee, change,
signature, CBOR. The results are the golden files of the repository, which were written by the Go code. These are tests of the model by
evaluation (`#guard`), not proofs; no theorem depends on them.
-/
set_option autoImplicit false

namespace Cardano.EndToEnd
open Bip32 TxBuilder Transaction Props

/-- The package with the hash functions of the Go libraries. -/
def crypto : Crypto := packageCrypto Hash.real (Hash.Blake2b.hash 32)

/-- tx/tx_builder_test.go:54-60 `createRootKey`. -/
def entropy : Bytes := [214, 64, 138, 69, 145, 210, 32, 51, 202, 45, 90, 151, 33, 194, 153, 176, 188, 94, 94, 186, 67, 118, 194, 227, 207, 157,
  54, 49, 34, 12, 83, 93]

/-- tx/tx_builder_test.go:62-64 `harden`. -/
def harden (n : UInt32) : UInt32 := 0x80000000 + n

/-- Hash of the public key of a private key. -/
def keyHash (k : Bytes) : Res Bytes := do
  let p ← PublicKey (← Public makePublicKey k)
  return Bip32.Hash (Hash.Blake2b.hash 28) p

/-- tx/tx_builder_test.go:66-89 `generateBaseAddress`: the payment key and the two credentials. -/
def generate : Res (Bytes × Cred × Cred) := do
  let root ← FromBip39Entropy Hash.real entropy []
  let account ← derivePath Hash.real makePublicKey root [harden 1852, harden 1815, harden 0]
  let utxo ← derivePath Hash.real makePublicKey account [0, 0]
  let stake ← derivePath Hash.real makePublicKey account [2, 0]
  return (utxo, ⟨0, ← keyHash utxo⟩, ⟨0, ← keyHash stake⟩)

/-- testdata/protocol/protocol.json -/
def protocolJson : Bytes := asc "{\n    \"txFeePerByte\": 44,\n    \"minUTxOValue\": 1000000,\n    \"decentralization\": 0,\n    \"utxoCostPerWord\": null,\n    \"stakePoolDeposit\": 500000000,\n    \"poolRetireMaxEpoch\": 18,\n    \"extraPraosEntropy\": null,\n    \"collateralPercentage\": null,\n    \"stakePoolTargetNum\": 500,\n    \"maxBlockBodySize\": 65536,\n    \"minPoolCost\": 340000000,\n    \"maxTxSize\": 16384,\n    \"treasuryCut\": 0.2,\n    \"maxBlockExecutionUnits\": null,\n    \"maxCollateralInputs\": null,\n    \"maxValueSize\": null,\n    \"maxBlockHeaderSize\": 1100,\n    \"maxTxExecutionUnits\": null,\n    \"costModels\": {},\n    \"protocolVersion\": {\n        \"minor\": 0,\n        \"major\": 4\n    },\n    \"txFeeFixed\": 155381,\n    \"stakeAddressDeposit\": 2000000,\n    \"monetaryExpansion\": 3.0e-3,\n    \"poolPledgeInfluence\": 0.3,\n    \"executionUnitPrices\": null\n}".toList

/-- The calls of `TestTxBuilderRaw` (tx/tx_builder_test.go:151-196), with the data of `testdata`. -/
def run (key : Bytes) (receiver : Address) : Res Bytes := do
  let change ← Addr.NewAddress true (asc "addr_test1qrf96nk9l8snyxd5a2x460rvsjdjkthmesxrq8x2fy5r0f0hnrvhwtnsuxzhvp752vuuxtjptuz7wfgtthedq6lthf6qhf562f".toList) []
  let pr := Json.loadProtocolFromBytes protocolJson
  if pr.err.isSome then .err "protocol" else
  let b := NewTxBuilder pr.value.params []
  let b := AddInputs b [NewTxInput (asc "fcbc18c64cdf133f33dd319c5105dc7c4972f2d646ae276fbd00cf7f39f8c380".toList) 0 10000000]
  let b := AddOutputs b [⟨receiver, 5000000⟩]
  let b := SetTTL b 55267575
  let b := AddChangeIfNeeded crypto b change
  let b := TxBuilder.Sign b key
  match Build crypto b with
  | (.ok h, b) => hex crypto (view b h) b.clock
  | (.err m, _) => .err m
  | (.panic, _) => .panic

/-- Both golden transactions. -/
def golden : Res (Bytes × Bytes) := do
  let (key, payment, stake) ← generate
  return (← run key (.base MainNet payment stake), ← run key (.enterprise MainNet payment))

-- testdata/transaction/tx_builder/golden/raw_tx_base.golden and raw_tx_ent.golden
#guard match golden with
  | .ok (x, y) =>
    x == asc "84a40081825820fcbc18c64cdf133f33dd319c5105dc7c4972f2d646ae276fbd00cf7f39f8c38000018282583901a597e3dc6a2f0b110c31c42abf0965b9705dd3f291c6091a277b36970819b5831950cb576926eaf9e74706ae43d251a7bf8906a9e1a140a31a004c4b4082583900d25d4ec5f9e13219b4ea8d5d3c6c849b2b2efbcc0c301cca492837a5f798d9772e70e1857607d45339c32e415f05e7250b5df2d06bebba741a0049ba73021a000290cd031a034b50f7a10081825820f623f6c21958349e8d3c2c6c7e03eacddefd085f6b26730d50e203b3c36c1ea05840004a496fb23d3fa701fb3beed2564396222397041324904f5eec10ffe7b16b923cd0d2fa69c4395603a7870a8046378265216e4a03b5d6efd501a55a3e58b001f5f6".toList &&
    y == asc "84a40081825820fcbc18c64cdf133f33dd319c5105dc7c4972f2d646ae276fbd00cf7f39f8c38000018282581d61a597e3dc6a2f0b110c31c42abf0965b9705dd3f291c6091a277b36971a004c4b4082583900d25d4ec5f9e13219b4ea8d5d3c6c849b2b2efbcc0c301cca492837a5f798d9772e70e1857607d45339c32e415f05e7250b5df2d06bebba741a0049bf43021a00028bfd031a034b50f7a10081825820f623f6c21958349e8d3c2c6c7e03eacddefd085f6b26730d50e203b3c36c1ea058403e54c3c618143a1b59324e5e79a054f4bece1dec3a26cf574af31521a2bbd11a72bc17852ff791e196a64ee74f8d8aa90755f5f89869aea9937e772e823ed60ff5f6".toList
  | _ => false

end Cardano.EndToEnd
