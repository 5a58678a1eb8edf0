import Verif.Node.Submit
/-!
# The Blockfrost client as an object

`Node/Model` has the functions of the client with the network as a parameter. Here the client is an object made once and used later: it holds the server of the
library's client, fixed when it was made, and a *pointer* to the network, read again by `SubmitTx`. The query for outputs has the parameters that the package leaves out.
-/
set_option autoImplicit false

namespace Cardano.Node
open Transaction

/-- blockfrost.go:19-23 `blockfrostNode` after blockfrost.go:128-149 `NewBlockfrostClient`. The field `network` is a pointer to a value of the caller: it is not here, what it
points to is a parameter of the methods. `client` is represented by the server it talks to. -/
structure BfNode where
  client : Server
  projectId : Bytes
  deriving DecidableEq

/-- blockfrost.go:128-149 `NewBlockfrostClient`: the value that `network` points to at that time decides the server of the client. -/
def NewBlockfrostClient (projectId : Bytes) (net : NetworkInfo) : BfNode := ⟨clientServer net, projectId⟩

/-- `blockfrost.APIQueryParams` (library): the fields for paging; 0 is left out of the request. -/
structure APIQueryParams where
  count : Nat := 0
  page : Nat := 0

/-- blockfrost.go:36-63 `UTXOs` of the object; `query` is the service: server, address, parameters. -/
def BfNode.UTXOs (n : BfNode) (query : Server → Bytes → APIQueryParams → Res (List Utxo)) (addr : Bytes) : Res (List TxInput) := do
  let utxos ← query n.client addr {}
  convertUTXOs utxos

/-- blockfrost.go:90-125 `SubmitTx` of the object; `now` is what `network` points to when it is called. Encoder calls `k` and `k+1`. -/
def BfNode.SubmitTx (n : BfNode) (C : Crypto) (post : Request → Res Response) (now : NetworkInfo) (t : Tx) (k : Nat) : Res (Bytes × Bool) :=
  bfSubmitTx C post now n.projectId t k

end Cardano.Node
