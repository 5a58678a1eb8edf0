import Verif.Examples.Model
import Verif.Json.Encode
/-!
# Model of `examples/node/main.go`

The program asks the service three things and prints the answers as JSON.
-/
set_option autoImplicit false

namespace Cardano.Examples
open Transaction Node Json

/-- node/main.go:24-27 `prettyPrint`, on the JSON value of the argument. The error is ignored; there is none for these types. -/
def prettyPrint (v : JVal) : Bytes := marshalIndent [9] v

/-- One `fmt.Printf` of the program: a label, the text, two line breaks. -/
def printed (label : List Char) (v : JVal) : Bytes := asc label ++ (prettyPrint v ++ [10, 10])

/-- node/main.go:29-63 `main` for any text in place of the literal at line 51: what has been printed, and how the program ends (`log.Fatal` is an error). `spare`: bytes
behind the decoded address in memory. -/
def nodeMain (w : World) (strict : Bool) (raw spare : Bytes) : Bytes × Res Unit :=
  match w.params (clientServer TestNet) >>= convertParams with
  | .err e => ([], .err e)
  | .panic => ([], .panic)
  | .ok p =>
    let out := printed ['\n','P','r','o','t','o','c','o','l',' ','P','a','r','a','m','e','t','e','r','s',':',' '] (protocolVal p)
    match w.tip (clientServer TestNet) with
    | .err e => (out, .err e)
    | .panic => (out, .panic)
    | .ok b =>
      let out := out ++ printed ['T','i','p',':',' '] (tipVal (convertTip b))
      match Addr.NewAddress strict raw spare >>= Addr.string >>= bfUTXOs w.utxos TestNet with
      | .err e => (out, .err e)
      | .panic => (out, .panic)
      | .ok utxos => (out ++ printed ['U','T','X','O','S',':',' '] (inputsVal utxos), .ok ())

end Cardano.Examples
