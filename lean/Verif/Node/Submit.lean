import Verif.Node.Model
/-!
# `SubmitTx` of the `cardano-cli` client with its operations on files, and `NewCardanoCliNode`

`Node/Model` has the value that is returned when all file operations succeed; here any of them can fail and the operations are recorded.
-/
set_option autoImplicit false

namespace Cardano.Node
open Transaction

/-- Operations that take or give back something of the operating system. -/
inductive Event where
  /-- `ioutil.TempFile`: a new file exists and is open -/
  | create (path : Bytes)
  | write (path data : Bytes)
  /-- the process has run -/
  | exec (command : Bytes) (args : List Bytes)
  | close (path : Bytes)
  /-- `os.Remove` -/
  | remove (path : Bytes)
  deriving DecidableEq

/-- The operating system: what the calls return. -/
structure OS where
  /-- the name of the temporary file, or no file -/
  tempFile : Except String Bytes
  writeErr : Option String
  /-- the process: command, contents of the file, arguments -/
  run : Bytes → Bytes → List Bytes → Except String Bytes
  closeErr : Option String

/-- cardano-cli.go:104-147 `SubmitTx`: the string and the error it returns, and what it did. `os.Remove` is deferred to the end of every path after the creation of the
file. The failure of `json.MarshalIndent` (impossible for three strings) is left out. Encoder calls `k` and `k+1`; a panic of the encoder is not
modelled here (there is none, C17), it is taken as an error. -/
def cliSubmit (C : Crypto) (os : OS) (cliPath : Bytes) (net : NetworkInfo) (t : Tx) (k : Nat) : (Bytes × Option String) × List Event :=
  match Transaction.hex C t k with
  | .err m => (([], some m), [])
  | .panic => (([], some "panic"), [])
  | .ok txHex =>
    match os.tempFile with
    | .error m => (([], some m), [])
    | .ok path =>
      let data := submitFile txHex
      match os.writeErr with
      | some m => (([], some m), [.create path, .write path data, .remove path])
      | none =>
        let args := cliArgs net [asc ['s','u','b','m','i','t'], asc ['-','-','t','x','-','f','i','l','e',' '] ++ path]
        match os.run cliPath data args with
        | .error m => (([], some m), [.create path, .write path data, .exec cliPath args, .remove path])
        | .ok cliData =>
          match os.closeErr with
          | some m => ((cliData, some m), [.create path, .write path data, .exec cliPath args, .close path, .remove path])
          | none => ((cliData, none), [.create path, .write path data, .exec cliPath args, .close path, .remove path])

/-- cardano-cli.go:150-164 `NewCardanoCliNode`: the command that will be run. -/
def newCliPath (cliPaths : List Bytes) : Bytes :=
  match cliPaths with
  | p :: _ => if p ≠ [] then p else []
  | [] => asc ['c','a','r','d','a','n','o','-','c','l','i']

end Cardano.Node
