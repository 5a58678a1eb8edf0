import Verif.Tx.Model
/-!
# Model of `node/*.go`

The outside world (the `cardano-cli` process, the Blockfrost service) is a parameter: a function from what is asked to what is answered.
Go strings are byte strings. Results returned together with an error are dropped, except where said.
-/
set_option autoImplicit false

namespace Cardano.Node
open Transaction

/-! ## Library functions used -/

/-- `fmt.Sprintf("%d", n)` for an unsigned number. -/
def decimal (n : Nat) : Bytes := if h : n < 10 then [UInt8.ofNat (48 + n)] else decimal (n / 10) ++ [UInt8.ofNat (48 + n % 10)]
termination_by n

/-- `strings.Split(s, "\n")`. The result has capacity equal to its length. -/
def splitLines : Bytes → List Bytes
  | [] => [[]]
  | c :: s =>
    match splitLines s with
    | [] => [[c]]
    | l :: ls => if c = 10 then [] :: l :: ls else (c :: l) :: ls

/-- `asciiSpace` of package `strings`. -/
def isSpace (c : UInt8) : Bool := c = 9 || c = 10 || c = 11 || c = 12 || c = 13 || c = 32

/-- The loop of `strings.Fields`; `cur` is the field being read. -/
def fieldsLoop : Bytes → (cur : Bytes) → List Bytes
  | [], cur => if cur = [] then [] else [cur]
  | c :: s, cur => if isSpace c then (if cur = [] then fieldsLoop s [] else cur :: fieldsLoop s []) else fieldsLoop s (cur ++ [c])

/-- `strings.Fields` on ASCII text (with bytes above 127 it would also split at Unicode spaces; they are left alone here). -/
def fields (s : Bytes) : List Bytes := fieldsLoop s []

/-- The loop of `strconv.ParseUint(s, 10, ...)` with the largest value allowed. The numbers stay below `10 * 2^64`; the tests of the
code for exceeding 64 bits (`n >= cutoff`, `n1 < n`) are subsumed in the comparison with `maxVal`. -/
def parseLoop (maxVal : Nat) : Bytes → (n : Nat) → Res Nat
  | [], n => .ok n
  | c :: s, n =>
    if 48 ≤ c ∧ c ≤ 57 then
      let n1 := n * 10 + (c.toNat - 48)
      if n1 > maxVal then .err "value out of range" else parseLoop maxVal s n1
    else .err "invalid syntax"

/-- `strconv.ParseUint(s, 10, bits)`. -/
def ParseUint (bits : Nat) (s : Bytes) : Res Nat := if s = [] then .err "invalid syntax" else parseLoop (2 ^ bits - 1) s 0

/-- `strconv.Atoi` with 64-bit `int`. The path for short strings and the one through `ParseInt` give the same result; this is the
latter. -/
def Atoi (s : Bytes) : Res Int :=
  match s with
  | [] => .err "invalid syntax"
  | c :: cs => do
    let un ← ParseUint 64 (if c = 45 ∨ c = 43 then cs else s)
    if c = 45 then
      if un > 2 ^ 63 then .err "value out of range" else return -un
    else if un ≥ 2 ^ 63 then .err "value out of range" else return un

/-- `uint(n)` of an `int`. -/
def toUint (n : Int) : UInt64 := UInt64.ofInt n

/-! ## `cardano-cli` -/

/-- cardano-cli.go:26-35: the arguments of the process. -/
def cliArgs (net : NetworkInfo) (args : List Bytes) : List Bytes :=
  let cmdSuffix :=
    if net.networkId = 0 then asc ['-','-','m','a','i','n','n','e','t']
    else asc ['-','-','t','e','s','t','n','e','t','-','m','a','g','i','c',' '] ++ decimal net.protocolMagic.toNat
  args ++ [cmdSuffix]

/-- cardano-cli.go:24-46 `execCommand`; `run` is the process: its standard output, or an error. -/
def execCommand (run : List Bytes → Res Bytes) (net : NetworkInfo) (args : List Bytes) : Res Bytes := run (cliArgs net args)

/-- `l[i]` for `i` possibly out of range. -/
def index {α : Type} (l : List α) (i : Nat) : Res α :=
  match l[i]? with
  | some a => .ok a
  | none => .panic

/-- `l[lo:hi]` of a slice with capacity equal to its length. -/
def slice {α : Type} (l : List α) (lo hi : Nat) : Res (List α) :=
  if hi > l.length ∨ lo > hi then .panic else .ok ((l.take hi).drop lo)

/-- cardano-cli.go:71-88: one row. -/
def parseRow (row : Bytes) : Res TxInput := do
  let sec := fields row
  let txIx ← ParseUint 16 (← index sec 1)
  let amSec := fields (← index sec 2)
  let amount ← Atoi (← index amSec 0)
  return NewTxInput (← index sec 0) (UInt16.ofNat txIx) (toUint amount)

/-- cardano-cli.go:70-91, the loop. -/
def parseRows : List Bytes → Res (List TxInput)
  | [] => .ok []
  | row :: rows => do
    let i ← parseRow row
    let is ← parseRows rows
    return i :: is

/-- cardano-cli.go:63-92: what is made of the output of the process. `lenData` is the number of bytes. -/
def parseUTXOs (data : Bytes) : Res (List TxInput) := do
  let ldata := splitLines data
  let lenData := data.length
  if lenData < 3 then return []
  else parseRows (← slice ldata 2 (lenData - 1))

/-- cardano-cli.go:57-93 `UTXOs`; `addr` is the string of the address. -/
def cliUTXOs (run : List Bytes → Res Bytes) (net : NetworkInfo) (addr : Bytes) : Res (List TxInput) := do
  let data ← execCommand run net [asc ['q','u','e','r','y'], asc ['u','t','x','o','s'], asc ['-','-','a','d','d','r','e','s','s',' '] ++ addr]
  parseUTXOs data

/-- cardano-cli.go:105-130: the file handed to the process (`json.MarshalIndent` of three strings without characters that need
escaping). -/
def submitFile (cborHex : Bytes) : Bytes :=
  asc ['{','\n','\t','"','t','y','p','e','"',':',' ','"','"',',','\n','\t','"','d','e','s','c','r','i','p','t','i','o','n','"',':',' ','"','"',',','\n',
    '\t','"','c','b','o','r','H','e','x','"',':',' ','"'] ++ cborHex ++ asc ['"','\n','}']

/-- cardano-cli.go:104-147 `SubmitTx`: the file is written to `path`, then the process is run; `run` receives the contents of the file
beside the arguments. File operations succeed. Encoder calls `k` and `k+1`. -/
def cliSubmitTx (C : Crypto) (run : (file : Bytes) → List Bytes → Res Bytes) (net : NetworkInfo) (path : Bytes) (t : Tx) (k : Nat) : Res Bytes := do
  let txHex ← Transaction.hex C t k
  execCommand (run (submitFile txHex)) net [asc ['s','u','b','m','i','t'], asc ['-','-','t','x','-','f','i','l','e',' '] ++ path]

/-! ## Blockfrost -/

/-- The constants `blockfrost.CardanoTestNet` and `blockfrost.CardanoMainNet` of the client library. -/
inductive Server where
  | testNet
  | mainNet
  deriving DecidableEq, Repr

/-- blockfrost.go:25-33 `getNetwork`: where transactions are submitted. -/
def getNetwork (net : NetworkInfo) : Server := if net.networkId = 0 then .testNet else .mainNet

/-- blockfrost.go:128-149 `NewBlockfrostClient`: the server the queries go to. -/
def clientServer (net : NetworkInfo) : Server := if net.networkId = 0 then .testNet else .mainNet

/-- `blockfrost.AddressAmount`. -/
structure Amount where
  unit : Bytes
  quantity : Bytes

/-- The fields of `blockfrost.AddressUTXO` that are used. `OutputIndex` is an `int`. -/
structure Utxo where
  txHash : Bytes
  outputIndex : Int
  amount : List Amount

/-- "lovelace" -/
def lovelace : Bytes := asc ['l','o','v','e','l','a','c','e']

/-- blockfrost.go:47-58, the inner loop, with the variable `amount`. -/
def sumAmount : List Amount → UInt64 → Res UInt64
  | [], amount => .ok amount
  | am :: ams, amount =>
    if am.unit = lovelace then do
      let amountI ← Atoi am.quantity
      sumAmount ams (toUint amountI)
    else sumAmount ams amount

/-- blockfrost.go:46-60, the loop. -/
def convertUTXOs : List Utxo → Res (List TxInput)
  | [] => .ok []
  | u :: us => do
    let amount ← sumAmount u.amount 0
    let is ← convertUTXOs us
    return NewTxInput u.txHash (UInt16.ofInt u.outputIndex) amount :: is

/-- blockfrost.go:36-63 `UTXOs`; `query` is the service at a server: the answer for an address. -/
def bfUTXOs (query : Server → Bytes → Res (List Utxo)) (net : NetworkInfo) (addr : Bytes) : Res (List TxInput) := do
  let utxos ← query (clientServer net) addr
  convertUTXOs utxos

/-- The fields of `blockfrost.EpochParameters` that are used. -/
structure EpochParameters where
  minFeeA : Int
  minFeeB : Int
  maxTxSize : Int
  protocolMajorVer : Int
  protocolMinorVer : Int
  minUtxo : Bytes

/-- protocol/protocol.go:14-30 `Protocol` with the version. -/
structure FullProtocol where
  params : Protocol
  major : UInt8
  minor : UInt8
  deriving DecidableEq, Repr

/-- blockfrost.go:66-87 `ProtocolParameters` on the answer of the service. -/
def convertParams (p : EpochParameters) : Res FullProtocol := do
  let minU ← Atoi p.minUtxo
  return ⟨⟨toUint p.minFeeA, toUint p.minFeeB, toUint p.maxTxSize, toUint minU⟩, UInt8.ofInt p.protocolMajorVer, UInt8.ofInt p.protocolMinorVer⟩

/-- An HTTP request as built at blockfrost.go:96-107: POST to `server/tx/submit` with two headers. -/
structure Request where
  server : Server
  projectId : Bytes
  body : Bytes

/-- An HTTP answer read completely. -/
structure Response where
  status : Int
  body : Bytes

/-- What `SubmitTx` returns: the string, and whether the error is non-nil. Encoder calls `k` and `k+1`. blockfrost.go:90-125; `post` is the
service. -/
def bfSubmitTx (C : Crypto) (post : Request → Res Response) (net : NetworkInfo) (projectId : Bytes) (t : Tx) (k : Nat) : Res (Bytes × Bool) := do
  let txB ← Transaction.bytes C t k
  let res ← post ⟨getNetwork net, projectId, txB⟩
  return (res.body, res.status ≠ 200)

/-- The fields of `blockfrost.Block` that are used, of type `int`. -/
structure Block where
  slot : Int
  epoch : Int
  height : Int

/-- types.go:4-8 `NetworkTip`. -/
structure NetworkTip where
  slot : UInt64
  epoch : UInt64
  block : UInt64
  deriving DecidableEq, Repr

/-- blockfrost.go:154-167 `QueryTip` on the answer of the service. -/
def convertTip (b : Block) : NetworkTip := ⟨toUint b.slot, toUint b.epoch, toUint b.height⟩

end Cardano.Node
