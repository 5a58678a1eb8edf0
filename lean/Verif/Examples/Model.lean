import Verif.Node.Model
import Verif.Bip32.Sign
/-!
# Model of `examples/`

The programs a reader of the documentation copies. The Blockfrost service, the library `go-bip39` and the random source are parameters. `log.Fatal` is an error.
`examples/node/main.go` is in `Examples/Node`.
-/
set_option autoImplicit false

namespace Cardano.Examples
open Bip32 Transaction TxBuilder Node

/-- What is outside of the programs. -/
structure World where
  params : Server → Res EpochParameters
  utxos : Server → Bytes → Res (List Utxo)
  tip : Server → Res Block
  post : Request → Res Response
  /-- `bip39.EntropyFromMnemonic`: with an error it returns a nil slice. -/
  entropy : Bytes → Option Bytes

/-- The hash functions. -/
structure Libs where
  H : Hashes
  blake224 : Bytes → Bytes
  C : Crypto

/-- transactions/txbuilder/main.go:56-58, address/restore/main.go:50-52, address/generate/main.go:13-15 `harden`. -/
def harden (num : UInt64) : UInt32 := (0x80000000 + num).toUInt32

/-- The hash of the public key of a key, `k.Public().PublicKey().Hash()`. -/
def keyHash (L : Libs) (key : Bytes) : Res Bytes := do
  let pub ← PublicKey (← Public makePublicKey key)
  return Hash L.blake224 pub

/-- transactions/txbuilder/main.go:36-42, address/restore/main.go:40-46: the checks of `init` on the flag `mnemonic`. `strings.Split(s, " ")` has one part more than `s`
has spaces. -/
def checkMnemonic (mnemonic : Bytes) : Res Unit :=
  if mnemonic = [] then .err "mnemonic cannot be empty"
  else if mnemonic.count 32 + 1 ≠ 24 then .err "mnemonic should be 24 words long"
  else .ok ()

/-! ## The transfer -/

/-- transactions/txbuilder/main.go:47-54 `createRootKey`; the error of the library is ignored. -/
def createRootKey (L : Libs) (w : World) (mnemonic : Bytes) : Res Bytes := FromBip39Entropy L.H ((w.entropy mnemonic).getD []) []

/-- transactions/txbuilder/main.go:60-81 `generateBaseAddress`: the address and the payment key. -/
def generateBaseAddress (L : Libs) (net : NetworkInfo) (root : Bytes) : Res (Address × Bytes) := do
  let account ← derivePath L.H makePublicKey root [harden 1852, harden 1815, harden 0]
  let utxoPrvKey ← derivePath L.H makePublicKey account [0, 0]
  let utxoPubKeyHash ← keyHash L utxoPrvKey
  let stakeKey ← derivePath L.H makePublicKey account [2, 0]
  let stakeKeyHash ← keyHash L stakeKey
  return (NewBaseAddress net ⟨0, utxoPubKeyHash⟩ ⟨0, stakeKeyHash⟩, utxoPrvKey)

/-- transactions/txbuilder/main.go:130-139: the loop over the unspent outputs, with the variable `firstMatchInput`. -/
def pick : List TxInput → (firstMatchInput : TxInput) → TxInput
  | [], i => i
  | utxo :: utxos, i => pick utxos (if utxo.amount ≥ 5000000 + 1000000 + 200000 then utxo else i)

/-- transactions/txbuilder/main.go:131 `var firstMatchInput tx.TxInput`. Its hash is a nil slice, which is written as null; here it is the empty byte string, of the same size. -/
def zeroInput : TxInput := ⟨[], 0, 0⟩

/-- transactions/txbuilder/main.go:83-176 `main`, with the checks of `init` before. The result is what is printed. `spare`: bytes behind the decoded address in memory. -/
def transfer (L : Libs) (w : World) (strict : Bool) (spare : Bytes) (projectId mnemonic sendTo : Bytes) : Res Bytes := do
  checkMnemonic mnemonic
  let pr ← convertParams (← w.params (clientServer TestNet))
  let rootKey ← createRootKey L w mnemonic
  let (sourceAddr, utxoPrvKey) ← generateBaseAddress L TestNet rootKey
  let receiverAddr ← if sendTo = [] then Addr.string sourceAddr else .ok sendTo
  let receiver ← Addr.NewAddress strict receiverAddr spare
  let utxos ← bfUTXOs w.utxos TestNet (← Addr.string sourceAddr)
  let builder := NewTxBuilder pr.params [utxoPrvKey]
  let builder := AddInputs builder [pick utxos zeroInput]
  let builder := AddOutputs builder [⟨receiver, 5000000⟩]
  let tip := convertTip (← w.tip (clientServer TestNet))
  let builder := SetTTL builder (tip.slot.toUInt32 + 300)
  let builder := AddChangeIfNeeded L.C builder sourceAddr
  let (txFinal, builder) := Build L.C builder
  let txFinal ← txFinal
  let (txHash, err) ← bfSubmitTx L.C w.post TestNet projectId (view builder txFinal) builder.clock
  if err then .err "submission failed" else return txHash

/-! ## Restoring addresses -/

/-- address/restore/main.go:61-77 `generateEnterprise`. -/
def restoreEnterprise (L : Libs) (net : NetworkInfo) (entropy : Bytes) : Res Address := do
  let rootKey ← FromBip39Entropy L.H entropy []
  let account ← derivePath L.H makePublicKey rootKey [harden 1852, harden 1815, harden 0]
  let utxoPubKeyHash ← keyHash L (← derivePath L.H makePublicKey account [0, 0])
  return NewEnterpriseAddress net (NewKeyStakeCredential utxoPubKeyHash)

/-- address/restore/main.go:79-104 `generateBaseAddress`. -/
def restoreBase (L : Libs) (net : NetworkInfo) (entropy : Bytes) : Res Address := do
  let rootKey ← FromBip39Entropy L.H entropy []
  let account ← derivePath L.H makePublicKey rootKey [harden 1852, harden 1815, harden 0]
  let utxoPubKeyHash ← keyHash L (← derivePath L.H makePublicKey account [0, 0])
  let stakeKeyHash ← keyHash L (← derivePath L.H makePublicKey account [2, 0])
  return NewBaseAddress net ⟨0, utxoPubKeyHash⟩ ⟨0, stakeKeyHash⟩

/-- address/restore/main.go:108-116: the map of networks. -/
def networkOf (flag : Bytes) : Res NetworkInfo :=
  if flag = asc ['m','a','i','n','n','e','t'] then .ok MainNet
  else if flag = asc ['t','e','s','t','n','e','t'] then .ok TestNet
  else .err "Unsupported network type"

/-- `bip39.EntropyFromMnemonic` with its error handled, address/restore/main.go:119-120 and 128-129. -/
def entropyOf (w : World) (mnemonic : Bytes) : Res Bytes :=
  match w.entropy mnemonic with
  | some e => .ok e
  | none => .err "Invalid mnenomic"

/-- address/restore/main.go:106-136 `main`, with the checks of `init` before: what is printed. -/
def restore (L : Libs) (w : World) (mnemonic network : Bytes) (addrType : UInt64) : Res Bytes := do
  checkMnemonic mnemonic
  let net ← networkOf network
  if addrType = 0 then
    let addr ← restoreEnterprise L net (← entropyOf w mnemonic)
    return asc "Enterprise Address: ".toList ++ (← Addr.string addr)
  else if addrType = 1 then
    let addr ← restoreBase L net (← entropyOf w mnemonic)
    return asc "Base Address: ".toList ++ (← Addr.string addr)
  else return []

/-! ## Generating and decoding -/

/-- address/generate/main.go:17-51 `main` after the choice of the entropy: the address and the signature that are logged. -/
def generate (L : Libs) (entropy : Bytes) : Res (Bytes × Bytes) := do
  let addr ← restoreBase L MainNet entropy
  let rootKey ← FromBip39Entropy L.H entropy []
  let account ← derivePath L.H makePublicKey rootKey [harden 1852, harden 1815, harden 0]
  let sign ← Bip32.Sign L.H account (asc "Hello There".toList)
  return (← Addr.string addr, Hex.encode sign)

/-- address/simple_decode/main.go:12-28 `main` for any text in place of the literal: what is logged. -/
def simpleDecode (strict : Bool) (raw spare : Bytes) : Res Bytes := do
  let addr ← Addr.NewAddress strict raw spare
  match addr with
  | .base .. => return asc "Base Addr: ".toList ++ (← Addr.string addr)
  | .enterprise .. => return asc "Enterprise Address: ".toList ++ (← Addr.string addr)
  | _ => return asc "Not baseAddress".toList

end Cardano.Examples
