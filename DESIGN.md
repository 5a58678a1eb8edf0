# Formal model of go-cardano-serialization in Lean 4 — design

## Layout

| Lean module (under `lean/Verif/`) | contents |
|---|---|
| `Go/Basic` | Go bytes, the outcome type `Res` (`ok`, `err`, `panic`), helpers for statements about all bytes |
| `Bech32/Model` | `internal/bech32/bech32.go` |
| `Bech32/Spec`, `Bits`, `Polymod`, `Detect`, `Codec` | bit-string specification of regrouping; the checksum as a linear code; error detection; BIP-173 |
| `Bech32/Unicode`, `UnicodeProofs` | the same file on arbitrary Go strings (runes, Unicode case tables) |
| `Bech32/Three`, `Four` | the roots of the generator in GF(1024); detection of three and four changed characters |
| `Codec/Hex`, `Codec/Base58`, `Codec/Crc32` | `encoding/hex`, `btcutil/base58`, `hash/crc32` (external libraries, modelled from their documentation and source) |
| `Cbor/Model` | the encoder calls of `fxamacker/cbor` the library makes |
| `Cbor/Spec`, `Complete`, `Lemmas` | independent RFC 8949 items, reader and writer, used as specification |
| `Byron/*` | `address/byron.go` |
| `Address/Model`, `Address/Alias` | `address/*.go`, `network/network.go`; the second one with an explicit heap |
| `Address/Spec`, `Lemmas`, `Parse` | CIP-19 layout as specification, proofs |
| `Tx/Model`, `Tx/Builder`, `Tx/Ops`, `Tx/Alias` | `tx/*.go`, `fees/linear.go`; sequences of builder calls; key slices with spare capacity |
| `Tx/Spec`, `Size`, `Fee`, `Lemmas` | specification and proofs |
| `Hash/*` | SHA-256, SHA-512, HMAC, PBKDF2, BLAKE2b from their standards, to instantiate the parameters |
| `Tx/Golden`, `Tx/EndToEnd`, `Address/Golden` | the cases of the repository's tests run on the model (tests of the model, not proofs) |
| `Bip32/Keys`, `Bip32/Sign`, `Bip32/HashTypes` | `bip32/bip32.go`, `crypto/crypto.go` |
| `Bip32/Spec`, `Lemmas` | BIP32-Ed25519 arithmetic as specification, proofs |
| `Ed25519/Machine` | three-address programs over 32/64-bit registers, interval analysis with its soundness proof |
| `Ed25519/ScalarModel`, `FieldModel`, `GroupModel`, `Tables`, `ScalarMultModel` | `crypto/edwards25519/*.go` |
| `Ed25519/Bits`, `ScalarProof`, `FieldProof`, `FieldBytes`, `FieldRing`, `Primes` | exactness of the limb arithmetic; 2^255-19 and the group order are prime |
| `Ed25519/Curve`, `Group`, `GroupProof`, `Encoding`, `TableProof`, `ScalarMultProof`, `SlideProof`, `TopDigit` | the curve group, point operations, encodings, tables, scalar multiplication |
| `Ed25519/Pointers`, `PointersProof`, `PointersDouble`, `Bip32/SignPointers` | `edwards25519.go` again, with pointers and the package variables in a memory; agreement with the models above; `MakePublicKey` and `Sign` on top |
| `Address/Objects` | constructors, conversions, parsing and accessors of addresses over objects and slices in memory |
| `Tx/Missing` | the builder with outputs whose address may be nil; `NewAddress` with both results |
| `Props/WatchOnly`, `Nonces` | C114, C115 |
| `Tx/Threads`, `Props/Goroutines` | builders in several goroutines, C116 |
| `Node/Client`, `Props/NodeMore` | the Blockfrost client as an object; C117-C119 |
| `Ledger/Metadata` | specification: the ledger's rules for metadata |
| `Json/Encode`, `Json/EncodeProofs`, `Examples/Node` | `json.Marshal`/`MarshalIndent` on the package's types, base64, and the program that prints them (C121, C122) |
| `Tx/Decode` | `cbor.Unmarshal` into the types of package `tx` |
| `Byron/Limits` | the readers of addresses with the limits of the CBOR library |
| `Tx/Nil` | transactions with nil pointers and nil slices; agrees with `Tx/Model` where nothing is nil |
| `Ed25519/Threads`, `Programs` | programs of single accesses to that memory, goroutines and their interleavings; the same functions access by access |
| `Node/Model`, `Node/Lemmas` | the pure part of `node/*.go` |
| `Node/Submit` | `SubmitTx` of the `cardano-cli` client with all its file operations, any of which can fail; `NewCardanoCliNode` |
| `Json/Model`, `Json/Decode` | `encoding/json.Unmarshal` into structs of unsigned numbers; `protocol/protocol.go` and the JSON answers of `node/cardano-cli.go` |
| `Json/Spec`, `Proofs`, `DecodeProofs` | RFC 8259 as a grammar; what a value states about a struct; proofs |
| `Go/Memory`, `Bip32/Memory` | byte slices as windows into arrays, with capacity; `bip32/bip32.go` again, with memory |
| `Cbor/Value` | `cbor.Marshal` on Go values (metadata), map entries in any order; what an item must be to represent a value; proofs |
| `Ledger/Spec`, `Read`, `Golden` | the ledger's reader of transactions and its UTXO and UTXOW rules for ada between key addresses, and conservation of tokens (specification only); what it reads in the bytes of the package |
| `Examples/Model` | the programs in `examples/`, with the service, `go-bip39` and the random source as parameters |
| `Props/*` | the property theorems, each with its C-number, and beside them examples meeting their hypotheses |

`tools/` has the generators of `properties.jsonl` and `MANIFEST.json`, the generator of the tables from `const.go`
(`gen_tables.py`), a textual comparison of the straight-line Go functions with their Lean programs (`check_ed25519.py`)
and the runner of the seeded-bug experiments (`seed.py`).

## Approach

* **Outcome of a Go call**: `Res α = ok α | err | panic`. Errors are values; a run-time panic is an explicit
  third outcome so that "never panics" can be stated and refuted.
* **Integers**: fixed-width Go integers are modelled by Lean's `UInt8/16/32/64`, or by integers wrapped after every
  operation (`Ed25519/Machine`), never by unbounded numbers, wherever the code does arithmetic on them. `uint` and `int`
  are 64 bits wide (C149 is about machines where they have 32).
* **Slices**: a list of bytes; where the code reslices past `len` (`readAddrCred`) a slice is a list plus the bytes
  between `len` and `cap`. Where a property is about sharing (C23, C28, C49, C58) there is an explicit heap.
* **Nondeterminism**: the order in which the CBOR encoder writes the entries of a Go map is an oracle: the metadata is a
  function from the number of the encoder call to its result, universally quantified. In C85-C88 each result is one of the encodings of a
  given Go value.
* **Hash functions** (SHA-256, SHA-512, HMAC, PBKDF2, Blake2b) are parameters with a known output length; nothing else is
  assumed about them. `Hash/Hmac` has the real ones and a proof that they have these lengths (`Hash.real_ok`).
* **Straight-line 64-bit code** of `edwards25519` (`FeMul`, `FeCombine`, `feSquare`, `FeToBytes`, `ScReduce`, `ScMulAdd`) is
  a program in a three-address language whose instructions are the Go statements; a verified interval analysis, run in the
  kernel by `decide +kernel`, shows that no operation overflows, and an invariant on the weighted sum of the limbs gives the
  result. This analysis is over all inputs within the stated bounds, not over samples.
* **The curve**: points over `ZMod (2^255-19)`, prime by a Pratt certificate. That the unified addition law is total,
  closed, associative is proved for all points by polynomial certificates (`linear_combination`).
* **Specifications** (bit strings, RFC 8949 items, CIP-19 layout, RFC 8032 encodings and verification equation,
  BIP32-Ed25519 formulas) are separate definitions that do not mention the helpers of the model.

## How each property is proved

C01, C07, C12, C13, C16, C50: `NewAddressFromBytes` and `Bytes`; case analysis on all header bytes.
C02, C08-C11, C55-C57: specification by bit lists; the checksum is affine over GF(2) and determines the six symbols
uniquely; bursts are detected since the step is injective, two errors since the orbit of the step has no short cycle. Three errors: the register evaluated at three consecutive powers of an element of order
1023 (BCH bound). Four: the values of a word of weight four are determined by its positions up to a factor; that they lie in GF(32) is refuted, by
logarithms modulo 33, for each of the 152096 arrangements of four positions less than 99 apart but two. This is a complete case analysis (of the
positions; the values are arbitrary), computed in the kernel.
C03, C31: hexadecimal. C04, C47, C48: CBOR reader, CRC-32 as a linear map, base58 as base conversion. The exact bound in C04 follows the position of
256^k between powers of 58 through one period of 49549 values of k (256^49549 is 58^67667 up to a factor 1.0000019), computed in the kernel with a
soundness proof by induction (`Byron/Long`); an address with 2039213 bytes exists because 65537 payloads that differ in four bytes have different checksums.
C05, C06: exact characterisation of the inputs on which the claim fails. C14, C15: induction on base-128 digits.
C17, C18, C26, C30: encoder against an independent RFC 8949 reader (`read (encode x ++ rest) = some (x, rest)`).
C19-C25, C27-C29, C54, C58, C59: the builder as a state machine; induction over call sequences; sizes of encodings.
C32-C34: little-endian values of byte lists and carry loops. C43: direct.
C38-C40, C53: programs, interval analysis, weighted sums. C41, C42, C51, C52: the group and its tables.
C35-C37, C60, C61: from C38-C42, C51 and the order of the base point (8 times a prime; proved prime).
C44-C46, C62, C63: direct; lists of any length by induction.
C64: composition of C24, C36 and the address layout.
C65, C67, C68: the formats themselves, not only round trips: CIP-19 bytes, BIP-173 strings and Base58 texts are described with literal
alphabets and constants and shown to be what the code writes and exactly what it accepts.
C66: the checksum is the remainder of division in GF(2)[x] (Mathlib polynomials); a bit of input is a step `p -> x p + b` modulo the
generator. Two-bit detection (C47) uses that `x` has order 2^32 - 1 modulo the generator, computed in the kernel by squaring.
C77-C82: the bytes are read back field by field (C17, C18), then each rule of the ledger follows from one of C20, C21, C24, C60, C64; the rejections from the rule
broken.
C74-C76: replay of the recorded operations in an independent description of files, open files and processes; option parsing described as a relation on argument lists.
C72, C73: induction over UTF-8 decoding; only the Kelvin sign has a lower case in the Bech32 alphabet.
C69-C71: the reader is sound and complete for the grammar (mutual induction on derivations; fuel is the length of the text), so the grammar is
unambiguous; storing is a fold over the members, compared with an inductive relation by induction from the right.
C85-C88: induction on Go values: every encoding is read back as an item representing the value (floats by their value, big integers by theirs), all encodings have the same length, and there is only one exactly if every
map has at most one entry (keys are distinguished by reading them back); then the reader and the auxiliary data rule of the ledger.
C83, C84: memory is a list of arrays. A slice is fresh if all arrays of before are unchanged and its own array is new; every step (allocation, `append`, assignment through a
fresh slice) keeps this, and the bytes are those of the value model.
C89: Byron addresses are described as CBOR items after CIP-19 (attributes are byte strings holding CBOR); the reader is evaluated on the item.
C90-C95: the programs are evaluated up to the call of the service; the wallet comes from C32, C34, C36, C65, the answers of the service from C46 and C62, fee and size are bounded by
the sizes of the parts, and acceptance is C77; rejection follows from the exact fee (C20) or from what the ledger reads.
C96: for any builder state, what the ledger reads is the body of the builder; only `AddChangeIfNeeded` writes the fee (induction over calls), so the balance and the size after later calls are
those at the time of `AddChangeIfNeeded` plus what came later. For the order before, two builders with equal body, keys and metadata give the same fee and bytes.
C97: memory is objects, arrays and slices (`Tx/Heap`). Invariant: the slices of all builders lie in different arrays. Each call is proved to be the call of `Tx/Ops` on the values, and to write only behind the
ends of the builder's own slices or in new arrays; then induction over the program.
C98-C100: the fee step is `x ↦ fixed + perByte (rest + size of x)`, monotone in the size of `x`, which has five values; so after five steps from anywhere it is a fixed point. C99 follows the calls.
C100: the draft is at least as large as the final transaction (same number of witnesses, smaller change), then the rules are checked one by one as for C77.
C101: lengths modulo padding (`convert_nopad`): a data part of one character less cannot regroup into whole bytes; the byte count decides for the fixed-length types. Zeros before a final 1 keep the checksum state 0.
C102: two prefixes with the same data part are both valid only if their checksum states agree (the step is injective on 30 bits); all slips of the four prefixes are then compared by the kernel (`Bech32/Slips.lean`, a finite set).
C103: bounds on the number a Base58 text spells give the leading bytes; for capitals these are the same for all addresses of a type.
C104: each function on the memory is the function of the value model followed by a write to its result (limb by limb for additions, where the order of reads and writes matters); everything else keeps
its value. The tables have the smallest addresses, results and local variables others; so they stay, by induction over calls, and each call is the one of the value model (C39, C41, C51, C52, C37).
C105, C107: the history theorem C29 puts every requested output, input and key into the transaction; the reader of the ledger then finds them there, or finds an array where an address should be.
C106: by the definition of Go's `copy` for all lengths; the rest through C107.
C108: the invariant (what the user knows is unspent, of the key, with these amounts, each once) by induction over the events; one payment by C77, the id by C26 and the reader of the ledger.
C109: an input that was removed stays absent as long as ids are new, by induction over the later transactions.
C110: C32, C34, C36, C65, C02, the reader of the ledger and C108 put together; instantiated with the hash functions of `Hash/*`.
C111: the functions of `Ed25519/Pointers` again as programs of single reads, writes and declarations (`Ed25519/Programs`); each program run alone is the function
of the pointer model, and writes no package variable (a syntactic property of the program, closed under sequence); an invariant over the steps of any schedule
(`Ed25519/Threads`): what a goroutine has still to do leads, from the memory it sees, to the end it would have had alone.
C112: `Address/Objects` has networks, credentials, addresses and byte arrays as objects, and the assignments a program can make; invariant over any list of actions:
the fields of the address and what its slices read. The effects of the assignments that do change an address are computed exactly.
C113: `Tx/Missing` is the builder with outputs that may have no address (`agree`: with addresses it is `Tx/Model`); outputs are only appended, and the reader of the ledger
fails on a body with a null or an array in place of an address, whatever follows the body.
C114: C35 for the path of soft steps after the path of the account, uniqueness of the public derivation, and C110 for the whole path.
C115: the point is the one of C37, encodings are unique (C51) and multiples of the base point are equal exactly modulo the order (C42); the order is prime.
C116: `Tx/Threads` has the calls as programs whose steps are the reads and writes of shared memory; each program writes nothing (whatever it reads), and run alone it is the call of `Tx/Model`
with the values of the shared objects; then an invariant over the steps of any schedule, as for C111. The race is computed.

C117-C119: the Blockfrost client as an object with a fixed server and a pointer (`Node/Client`). The formats of the answers (hexadecimal digits, or JSON), the paging of the service
and the first letter of what the tool prints are hypotheses or small definitions beside the theorems; the ledger and `NewTxInput` (C31) do the rest.

C120: the ledger's rules for metadata as a separate specification (`Ledger/Metadata`); by induction over Go values, an item that represents a value satisfies
them exactly if the value does, and C77, C85, C87, C88 carry this over to transactions and sessions.
C121: the encoder is modelled as a function from JSON values to text with the line breaks as a parameter (`Json/Encode`); by induction over values its text is derived in the
grammar of `Json/Spec` (whitespace anywhere), so the parser of C69 gives the value back; then the value of a struct states the struct (`FieldIs`). Base64 of the hashes: induction
over groups of three bytes, against the decoder and against RFC 4648.
C122: `Examples/Node`, the three queries in sequence; the texts printed are JSON texts that state what the service reported, if that is true (`Truthful`, as in C90). The hash
is base64 of RFC 4648, shown different from every hexadecimal spelling by its length.
C123: induction over the calls gives the outputs of the builder as a list that the calls ask for (`Asked`, a relation between calls and ledger outputs); C29 gives the inputs; `finish_read`
gives what the ledger reads; then the transition `Ledger.apply`. The id is that of C26 (`finish_id`).
C124: C29 for the last `SetTTL`, and the only rule of the ledger that mentions the slot.
C125: from `C20_exact`; the written size of an output address is its size plus two.
C126: `cbor.Unmarshal` on the struct definitions (Tx/Decode), applied to the item that the bytes of a transaction are (C17).
C127: invariant over all sequences of calls on the model with arrays, lengths and capacities (Tx/Heap): every write is at or after the length of a list that has been read, except by `append` of the user.
C128: one step of derivation is injective unless HMAC collides on its two inputs (from the arithmetic of C33: equal chain codes force equal messages, then additions modulo 2^256 cancel); induction from the ends of both paths; C61 for public keys, C16 for texts.
C129: `Tx/Nil` is the model again with everything that can be nil; each place is an item that the ledger's reader refuses, and the totals are followed by induction over the lists.
C130: two valid equations with the same point and the same scalar give the same multiple of the public key, whose order is the group order; then the bytes of the body determine what the ledger reads (any bytes, by the completeness of the reader on the built body).
C131: acceptance depends on the state only at the inputs, application of two such transactions commutes; induction over the permutation.
C132: subtraction of the MAC output from the child's two halves, the MAC being computable from the extended public key for soft indices; induction along the path with C33 and C35.
C133: the ledger's rule on the network id, and the first byte of every Shelley address carries the id that `NetworkInfo()` reports.
C134: C100 (a payment by hand is accepted) at every step of an induction over the events, as in C108, with a key for every output.
C135: the strict verifier is specified separately (`StrictlyValid`); points of small order have order dividing 8 and multiples of the base point have order 1 or L, so the only bad case is the zero multiple; C36 and C37 give the rest.
C136: upper bounds on the length of every item of the transaction, summed by induction over the lists; then C77 and C100 with their conditions discharged from the bounds.
C137: sums and encoded lengths are invariant under permutations, so the two passes of the fee agree; the ledger rules do not look at the order; C77 for success.
C138: the first Build leaves one witness for each key in the builder, so C20 applies with as many signatures; sizes from C136, ledger rules one by one as in C77.
C139: a second encoder from the text of the RFC; equality of the two on every item of a transaction, with structural recursion over metadata values.
C140: the reader gives back the session, and each rule of the ledger becomes a condition on it.
C141: a closed formula for the size, compared with the encoder part by part; the fee by way of the formula for `MinFee` (C20).
C142: an inductive definition of the chains that can be reached; in them every transaction was accepted after those before it, hence nothing is spent twice.
C143: C136 without outputs for each batch, C131 for the order, and the unspent outputs after a list of transactions by induction.
C144: the body at the time of signing is a function of what the copies share; induction on the parties; C37 and C130 for the signatures.
C145: the rules of the later eras as a separate specification (in Props/Eras); the size of an output is bounded by its address; C136 for the payment.
C146: the body that the builder makes does not depend on its keys; then as in C144.
C147: the functions as programs of single reads and writes, with keys, digits and hash outputs in memory (Bip32/Accesses.lean); two programs are the same if their continuations are for all values read, so the accesses agree by induction; that the programs compute the package's functions is proved by postconditions (Bip32/AccessesProof.lean).
C148 (partial): the text as a number; a mistyped character adds or subtracts one of finitely many numbers. Acceptance fixes the two bytes behind the hash to one of twelve values (all CBOR readings of attributes and type, by a lemma on how many bytes an item uses up); modulo 2^56 no such number leads from one to another, except into a byte that is not a number; if the payload is unchanged the checksum item must denote the same number and differ. Counterexamples for the first 13 characters; panics for characters left out or added.
C149: Tx/Word32 is a second model of the functions whose numbers are `uint` or `int`, with UInt32; cutting to 32 bits is a homomorphism, so the totals agree modulo 2^32, and the sizes of the fee transactions (from the size of the built one) bound the fees of both passes below 2^32. Atoi with 32 bits is characterised by the numbers written.
C150: Tx/Word32 and Json/Word32 have the same functions with a bound of 2^32; each differs from the 64-bit one only by an error, found by walking both programs together. For Byron addresses the type must be 0 in any case, so that the two agree.
C151: an error of an encoder is followed through the `Res` monad; for the last part, the change of the first AddChangeIfNeeded stays among the outputs (outputs only grow), so that a positive fee would make the outputs and the fee exceed the inputs, which the ledger's conservation rule forbids; a fee of 0 is below the least fee.
C152: the inputs of a builder only grow, so that the earlier transaction's inputs are among those of the later one; what the ledger reads in bytes taken through any handle follows from an invariant of all builders on witness objects and the auxiliary hash.
C153: the items written are determined by the fields, null for a nil hash; an encoding has one parse (`Cbor.Enc.inj`), so different fields give different bytes; the reader's checks on length and type decide the rest.

## Trusted base

* Lean's kernel (4.33.0) and Mathlib's definitions (`ZMod`, `Nat.Prime`, groups, polynomials). No axiom is added, there is no
  `sorry`, `native_decide` or `bv_decide`. The axioms each property theorem depends on are listed at the end; they are
  among `propext`, `Classical.choice` and `Quot.sound`.
* The correspondence of the model with the Go source: done by hand, function by function, each definition cites the lines;
  the long straight-line functions and tables of `edwards25519` are compared mechanically (`tools/check_ed25519.py`,
  `tools/gen_tables.py`).
* The models of external packages: `encoding/hex`, `btcutil/base58`, `hash/crc32`, `fxamacker/cbor` v2.4.0, `strconv`,
  `strings`, `encoding/json` (the part that reads into structs of unsigned numbers; nesting limit as of Go 1.15).

### Tests of the model

The correspondence is also tested by evaluation, with results that the Go code produced: `Tx/EndToEnd` runs `TestTxBuilderRaw` on the model, from the
entropy and `testdata/protocol/protocol.json` through PBKDF2, hard and soft derivation, public keys, key hashes, addresses, fee, change, signature and CBOR, and
obtains the two golden files byte by byte; `Address/Golden` runs the cases of `address/address_test.go`. No theorem depends on these.

### Modelled

Every function of `address`, `bip32`, `crypto`, `crypto/edwards25519`, `fees`, `internal/bech32`, `network`, `tx`, and of
`node` the functions `execCommand`, `UTXOs`, `SubmitTx` (both clients), `ProtocolParameters`, `QueryTip`, `getNetwork`,
`NewBlockfrostClient` (Blockfrost), `ProtocolParameters`, `QueryTip` (command line); `protocol.LoadProtocol`; the programs in `examples/`; `json.Marshal` and `json.MarshalIndent` on the types of the package.

### Not modelled

* The network, processes and files (parameters of the node model); memory exhaustion.
* As metadata: values that the library cannot encode (channels, functions, complex numbers), `MarshalCBOR` methods that fail or answer differently on each call,
  structs as keys of maps; strings that are not UTF-8 (written unchanged by the model). This concerns `Tx/Metadata` (C85-C87, C120). For the builder metadata is any encoder,
  which may fail or answer differently on each call (`Metadata` in `Tx/Model`; C151). A `time.Time` is written as an integer or null by default and is not modelled separately.

### The ledger (C77-C82)

`Ledger/Spec` is a specification, trusted like every other specification: four-element transactions, body fields 0, 1, 2, 3, 7, key witnesses only, rules of the Shelley
UTXO and UTXOW transitions (time to live, non-empty and existing inputs, minimum fee, conservation of value, minimum output, network, size, signatures, witnesses
for all inputs, auxiliary data hash). `Ledger/Metadata` adds the rules for metadata (C120). The minimum output is the parameter `minUTxOValue` which the package carries, as in Shelley; later eras compute it from the size of the
output. The reader rejects more than the ledger does (unknown fields, indefinite lengths), and does not look into the metadata.

### Simplifications

* Bech32: `Bech32/Model` works on bytes and maps ASCII letters. `Bech32/Unicode` works on runes with `strings.ToLower/ToUpper`, as Go does; C72 proves that for
  `NewAddress` and `Encode` there is no difference on any string, and C73 what the difference is for `Decode`. Of the Unicode tables it is assumed that, outside
  ASCII, only U+212A and U+0130 have an ASCII lower case.
* JSON: texts are read to a tree and then stored; Go checks the whole text first and then walks it again. Bytes above 127 in strings are kept;
  Go replaces invalid UTF-8, which affects no comparison with a name. Error messages are not those of Go.
* CBOR decoding (Byron): the limits of the library (depth 32, 131072 elements) and UTF-8 checks are left out of `Byron/Model`. `Byron/Limits` has them, as any
  set of refused items, and `C04_limits_refine` proves that accepted addresses and panics are then the same, `C04_limits_roundtrip` that every Byron address is still read back. Whether trailing bytes are an error is a parameter `strict`; theorems hold for both values.
* A nil slice is not distinguished from an empty one in `ByronAddress.Hash` (except in `Props/ByronByHand`, C153) and the Byron attributes. Pointers and slices in transactions are not nil in `Tx/Model`
  (the constructors make none); `Tx/Nil` has them (C129).
* Builder: `Tx/Model` has values in place of pointers to inputs and outputs; `Tx/Heap` has the pointers, and C97 proves when this makes no difference.
* `VariableNatEncode` and `reverseAny` (reflection) are one definition: digits in reverse order.
* Bip32: in `Keys` and `Sign` slices have capacity equal to length, the in-place clamping writes are updates of the list and copies
  into a buffer are concatenations. `Bip32/Memory` models capacity, writes and sharing, and agrees with `Keys` and `Sign` (C83).
* Goroutines (C111): sequentially consistent steps of one limb each; `FeToBytes` reads all limbs of its argument before it writes them (the source does both limb by limb, on the
  same variable); byte slices and the hash functions are values. That a program without data races behaves sequentially consistently is the Go memory model's promise, trusted here.
* Field and group: in `FieldModel`, `GroupModel` and `ScalarMultModel` results are returned instead of stored. `Ed25519/Pointers` has the pointers,
  the writes limb by limb, the local variables and the tables in one memory, and C104 follows from it. The unused variable `tmp2` of `FromBytes` is dropped; `x -= y * c` is the instruction with a negative coefficient.
  Loops over digits are recursions or folds.
* Node: the process and the service are parameters returning the complete output; `strings.Fields` is on ASCII; `Atoi` is one
  code path (the fast path of the library has the same results).

## Findings

Claims of `properties.jsonl` that are false of the code; each is proved false in Lean, with the strongest true part as
the `_partial` theorem.

* C02: `String` of a pointer address is always empty. C57: `NewAddress` ignores the prefix, so a test net prefix on a main net
  address is accepted.
* C09: base addresses are longer than the 90 characters for which BIP-173 guarantees detection of four errors; two base addresses that differ in four
  characters are given.
* C56: the text of a base address in which one character is replaced by `1` can be accepted as an enterprise address, since the prefix is not checked.
* C04: the base58 text of every Byron address with exactly 2039213 bytes starts with `addrA`; `NewAddress` takes it for bech32 and refuses it. This is the
  smallest length at which that happens: up to 2039212 bytes no text starts with `addr` or `stake`.
* C05: surplus bytes of a base address, superfluous pointer digits and network numbers above 1 are dropped silently. C06: short inputs panic (exact condition proved).
* C07: network nibbles 2 to 15 are reported as network 0. C15: `VariableNatDecode` wraps at 2^64.
* C20: with two or more keys the fee is below the minimum; also when the change amount is wider than the placeholder.
* C22: with insufficient inputs `AddChangeIfNeeded` adds an output of nearly 2^64. C23, C28: `MinFee` adds a dummy witness to a
  builder without witnesses; a built transaction shares its body with the builder.
* C27, C59: with map metadata the auxiliary data hash, and with it the signed body, can differ from the submitted one.
* C30: Byron and reward addresses are not written as byte strings in outputs; reward addresses make serialisation fail.
* C31: malformed hexadecimal in `NewTxInput` is cut off silently. C46, C62: numbers out of range are truncated.
* C36: `MakePublicKey` is wrong for most scalars of 2^255 and more (none of which the package produces).
* C44: the command line client uses main net for test net and an unusable argument for all others. C45: its `UTXOs` panics on every
  real output.
* C49, C58: parsed addresses alias the input buffer; builders made from one key slice share its spare capacity.
* C51: decompression accepts encodings with y not reduced, and x = 0 with sign 1, unlike RFC 8032.
* C74: `SubmitTx` through `cardano-cli` does not close its temporary file when writing or the tool fails; when only closing fails it returns an error although the
  transaction was submitted. (On Windows an open file cannot be removed; this is not modelled.)
* C75: an empty path makes the program name empty instead of `cardano-cli`.
* C78-C82: the builder accepts an input twice, amounts and change below the minimum, outputs of different networks, transactions above the size limit and several
  keys without an error; the ledger rejects the results. Both golden transactions of the repository pay on main net and return change on test net.
* C82, C138, C141: with k keys the fee lacks the price of 101 (k - 1) bytes (and of 1 more from 24 keys on); calling `Build` once before `AddChangeIfNeeded` and again after it
  avoids this.
* C84: `NormalizeBytesForce3rd` overwrites its argument and returns it; appending to `PublicKey()` of an extended public key overwrites the chain code.
* C87: this is so for every metadata value with a map of two or more entries, also nested; the ledger then rejects. A struct (with `keyasint` labels) in place of the map avoids this. C88: a nil map as metadata makes every transaction
  invalid.
* C89: Byron addresses with a protocol magic (all test nets), script and redemption addresses are rejected; a network attribute is written as a number, where CIP-19 has a
  byte string.
* C90-C93: the example transfer spends the last sufficient output instead of the first, posts an unreadable transaction when there is none, uses a publicly known wallet when the
  mnemonic is invalid, has the fee window of C20 near 4300 ada, and keeps the time to live modulo 2^32.
* C95: native tokens in a spent output make every transaction of the builder invalid.
* C96: inputs, outputs, time to live, metadata or a second change after `AddChangeIfNeeded`, or leaving that call out, make the transaction invalid.
* C97: a built transaction holds the caller's output objects; writing to one changes it after it was signed.
* C98: one round of `Fee` and `SetFee` leaves the fee too small. C99: `TxBody.Bytes` lacks the auxiliary data hash before the first `Hash`, `Bytes` or `Fee`.
* C100: the README's program is unsigned (and uses names the package does not have).
* C101: text of a base address ending in `p` with `q`s put before the `p`: accepted as the same address.
* C103: Base58 text is not limited to Byron addresses; other text panics; address text in capitals is misread or panics.
* C105: a payment or change to a Byron address gives a transaction that no ledger accepts, without an error. C106: credentials of any length are accepted, cut or filled with zeros;
  what is paid to an address made from a public key in place of its hash is lost.
* C112: `NewKeyStakeCredential` and `NewScriptStakeCredential` keep the caller's slice, so hashes computed into one buffer give credentials that all change with the buffer; `NetworkInfo()`
  gives a pointer into the address, through which an address can be moved to another network.
* C113: nil is taken as address of outputs and change and written as null; the ledger rejects it, `Build` reports nothing.
* C116: goroutines that make builders from one slice of keys with spare capacity and call `Sign` race; one may sign with the key of the other.
* C117: the string returned by `SubmitTx` is the answer as it is: in quotation marks from Blockfrost, a sentence from the command line tool. Passed to `NewTxInput` it becomes the
  empty id. C118: `UTXOs` asks for one page, a hundred outputs; the rest is missing silently. C119: a Blockfrost client submits to another network when the `NetworkInfo` it was made
  with is changed, while its queries stay.
* C120: metadata that the ledger never accepts (a text of more than 64 bytes, a truth value, a nil, a float, a big integer of more than 64 bits, a text as label) is written and signed without an error.
* C121: a `TxOutput` written as JSON cannot be read back: its address is an interface, and `json.Unmarshal` reports an error.
* C122: `examples/node` prints transaction ids in base64 (the JSON form of a byte slice), not as the hexadecimal ids.
* C125: `MinFee` counts a base address for the change, so that a user whose change goes to an enterprise address pays for 28 bytes too much (1232 lovelace on mainnet).
* C124: `SetTTL(0)` does not make a transaction that has expired, but one that never does.
* C126: `TxInput` has a method for writing CBOR and none for reading, and the address of an output is an interface: no transaction with inputs or outputs can be decoded with `cbor.Unmarshal`.
* C127: `MinFee` appends its placeholder output into the spare capacity of the builder's outputs. `outs := append(tb.Tx().Body.Outputs, o)` followed by `AddChangeIfNeeded` or `Build` replaces `o` in `outs` by the placeholder; a second transaction with `outs` pays the address in the source of the package.
* C129: nil inputs, outputs, witnesses, a nil body or witness set are written as null and signed without an error; `MinFee` and `AddChangeIfNeeded` panic on some of them.
* C132: nothing warns that a private key of an address, with the extended public key of the account, is the private key of the account (a property of the scheme, BIP32-Ed25519).
* C133: transactions for one test network are accepted on another with the same id; the protocol magic is in no Shelley address.
* C76: `--address X` and `--tx-file X` are passed as one argument each.
* C73: `bech32.Decode` accepts the Kelvin sign for K and panics on `CAMARYW1` followed by two of them (not reachable through `NewAddress`).
* C54: `MinFee` is zero when an output does not serialise.

## Axioms per theorem (generated by tools/mkdesign.py)

`p` = propext, `c` = Classical.choice, `q` = Quot.sound, `-` = none.

| property | status | theorem: axioms |
|---|---|---|
| C01 | proved | `C01_bytes_roundtrip`: p q |
| C02 | partial | `C02_string_roundtrip_partial`: p c q; `C02_pointer_string_empty`: p q |
| C03 | proved | `C03_hex_roundtrip`: p q; `C03_bad_hex_rejected`: p c q |
| C04 | partial | `C04_byron_bytes_roundtrip`: p c q; `C04_byron_string_roundtrip_partial`: p c q; `C04_byron_string_roundtrip_general`: p c q; `C04_byron_string_misread`: p c q; `C04_limits_roundtrip`: p c q; `C04_limits_refine`: p q; `C04_limits_shelley`: p q |
| C05 | partial | `C05_parse_faithful_partial`: p c q; `C05_base_not_faithful`: p q; `C05_network_not_faithful`: p q; `C05_pointer_not_faithful`: p q |
| C06 | partial | `C06_panics_iff_partial`: p c q; `C06_hex_panics_iff_partial`: p c q; `C06_text_panics_iff_partial`: p c q; `C06_parse_panics`: p c q |
| C07 | partial | `C07_network_preserved_partial`: p c q; `C07_unknown_network_reported_as_testnet_id`: p q |
| C08 | proved | `C08_bech32_roundtrip`: p c q |
| C09 | proved | `C09_bech32_detects_burst`: p c q; `C09_bech32_detects_two`: p c q; `C09_bech32_detects_three`: p c q; `C09_bech32_detects_four`: p c q; `C09_bech32_detects_four_long`: p c q; `C09_four_not_always_detected`: p c q; `C09_four_other_arrangement`: p c q |
| C10 | proved | `C10_bech32_canonical`: p c q; `C10_bech32_injective`: p c q; `C10_bech32_mixed_case_rejected`: p q |
| C11 | proved | `C11_regroup_8_to_5`: p c q; `C11_regroup_5_to_8`: p c q |
| C12 | proved | `C12_header_decides_type`: p c q |
| C13 | proved | `C13_conversions_keep_credentials`: p q |
| C14 | proved | `C14_varnat_roundtrip`: p c q |
| C15 | partial | `C15_varnat_exact_partial`: p q; `C15_overflow_accepted`: p q |
| C16 | proved | `C16_bytes_injective`: p q; `C16_string_injective`: p c q |
| C17 | proved | `C17_bytes_wellformed`: p c q |
| C18 | proved | `C18_bytes_injective`: p c q |
| C19 | proved | `C19_fee_linear`: p q; `C19_fee_exact`: p q |
| C20 | partial | `C20_fee_sufficient_partial`: p c q; `C20_exact`: p c q; `C20_multisig_underpays`: p c q; `C20_width_underpays`: p c q |
| C21 | proved | `C21_conservation_mod64`: p c q; `C21_value_conserved`: p c q |
| C22 | partial | `C22_change_bounded_partial`: p c q; `C22_change_from_nothing`: p c q; `C22_zero_change_output`: p c q |
| C23 | partial | `C23_minfee_pure_partial`: p c q; `C23_minfee_adds_witness`: p c q |
| C24 | proved | `C24_build_signs_body`: p q; `C24_signed_hash_is_txid`: p q |
| C25 | proved | `C25_build_idempotent`: p q; `C25_build_keeps`: p q |
| C26 | proved | `C26_hash_is_hash_of_body`: p c q; `C26_hash_ignores_witnesses`: p q |
| C27 | partial | `C27_aux_hash_partial`: p c q; `C27_map_order_breaks_hash`: p c q; `C27_stale_hash`: p c q |
| C28 | partial | `C28_built_tx_stable_partial`: p c q; `C28_built_tx_changes`: p q; `C28_minfee_changes_built_tx`: p c q |
| C29 | proved | `C29_history`: p c q; `C29_new`: - |
| C30 | partial | `C30_output_address_partial`: p c q; `C30_byron_not_bytestring`: p c q; `C30_reward_never_serialises`: p q |
| C31 | partial | `C31_hash_kept_partial`: p q; `C31_malformed_hex_accepted`: p q; `C31_odd_length_truncated`: p q; `C31_bad_id_rejected`: p c q |
| C32 | proved | `C32_root_key`: p c q; `C32_bip39_root_key`: p c q |
| C33 | proved | `C33_derive`: p c q |
| C34 | proved | `C34_path_scalars`: p c q |
| C35 | proved | `C35_soft_derivation`: p c q; `C35_soft_path`: p c q |
| C36 | proved | `C36_public_key`: p c q; `C36_range`: p c q; `C36_chain_code`: p c q |
| C37 | proved | `C37_signature_valid`: p c q; `C37_nonce`: p c q |
| C38 | proved | `C38_reduce`: p c q; `C38_mulAdd`: p c q |
| C39 | proved | `C39_add`: p c q; `C39_sub`: p c q; `C39_neg`: p c q; `C39_mul`: p c q; `C39_square`: p c q; `C39_square2`: p c q; `C39_invert`: p c q |
| C40 | proved | `C40_toBytes`: p c q; `C40_fromBytes`: p c q; `C40_canonical`: p c q; `C40_roundtrip`: p c q; `C40_predicates`: p c q |
| C41 | proved | `C41_points`: p c q; `C41_group_law`: p c q; `C41_add_sub`: p c q; `C41_mixed`: p c q; `C41_double`: p c q; `C41_convert`: p c q |
| C42 | proved | `C42_base_point`: p c q; `C42_order`: p c q; `C42_base`: p c q; `C42_bi`: p c q |
| C43 | proved | `C43_hash_constructors`: p q; `C43_hash_functions`: p q |
| C44 | partial | `C44_blockfrost_partial`: -; `C44_cli_wrong_network`: p q; `C44_cli_argument`: p q |
| C45 | partial | `C45_rows_partial`: p q; `C45_always_panics`: p q; `C45_never_an_input`: p q |
| C46 | partial | `C46_utxos_partial`: p q; `C46_index_truncated`: p q; `C46_last_lovelace_wins`: p; `C46_negative_accepted`: p q; `C46_quantity_exact`: p q |
| C47 | proved | `C47_byron_burst_detected`: p c q; `C47_byron_four_bytes_detected`: p c q; `C47_byron_two_bits_detected`: p c q; `C47_rejected`: p c q |
| C48 | proved | `C48_accepted_byron_valid`: p c q; `C48_inner_trailing`: p c q |
| C49 | partial | `C49_no_alias_partial`: p q; `C49_parsed_address_aliases_buffer`: p q |
| C50 | proved | `C50_layout`: p q |
| C51 | proved | `C51_encoding_unique`: p c q; `C51_toBytes`: p c q; `C51_accepts`: p c q; `C51_result`: p c q; `C51_roundtrip`: p c q; `C51_accepts_nonencodings`: p c q |
| C52 | proved | `C52_double_scalar_mult`: p c q |
| C53 | proved | `C53_minimal`: p q; `C53_reduced_passes`: p c q |
| C54 | partial | `C54_minfee_ge_fixed_partial`: p c q; `C54_minfee_zero`: p c q |
| C55 | proved | `C55_polymod_is_bch_remainder`: p c q; `C55_checksum_iff_remainder_one`: p c q |
| C56 | proved | `C56_mistyped_burst_rejected`: p c q; `C56_mistyped_two_rejected`: p c q; `C56_mistyped_three_rejected`: p c q; `C56_mistyped_four_rejected`: p c q; `C56_four_wrong_characters`: p c q; `C56_three_wrong_characters`: p c q; `C56_separator_typo_accepted`: p c q |
| C57 | partial | `C57_accepted_string_canonical_partial`: p c q; `C57_prefix_not_checked`: p c q |
| C58 | partial | `C58_builders_independent_partial`: p c q; `C58_builders_share_keys`: p q |
| C59 | partial | `C59_submitted_body_is_signed_partial`: p c q; `C59_map_order_breaks_signature`: p c q |
| C60 | proved | `C60_witnesses_verify`: p c q |
| C61 | proved | `C61_public_key_injective`: p c q |
| C62 | partial | `C62_parameters_partial`: p q; `C62_version_truncated`: -; `C62_tip`: p q; `C62_min_utxo_exact`: p q; `C62_min_utxo_accepted`: p q |
| C63 | proved | `C63_blockfrost_submits`: p q; `C63_cli_submits`: p q; `C63_cli_file_is_json`: p q; `C63_tx_hex`: p q |
| C64 | proved | `C64_witness_matches_address`: p q |
| C65 | proved | `C65_constructed_bytes`: p c q; `C65_constructed_text`: p c q; `C65_reported_network`: p c q |
| C66 | proved | `C66_accepted_checksum_is_crc32`: p c q; `C66_written_checksum_is_crc32`: p c q |
| C67 | proved | `C67_encode_iff_bip173`: p c q; `C67_decode_iff_bip173`: p c q; `C67_decode_upper_iff_bip173`: p c q |
| C68 | proved | `C68_byron_text_is_base58`: p c q; `C68_base58_text_parsed`: p c q |
| C69 | proved | `C69_load_iff`: p c q; `C69_complete_file`: p c q; `C69_bad_value_reported`: p c q; `C69_bad_version_reported`: p c q |
| C70 | partial | `C70_nonzero_is_stated`: p c q; `C70_unstated_is_zero_partial`: p c q |
| C71 | proved | `C71_protocol_iff`: p c q; `C71_tip_iff`: p c q |
| C72 | proved | `C72_new_address_any_string`: p c q; `C72_non_ascii_rejected`: p c q; `C72_encode_any_prefix`: p c q |
| C73 | partial | `C73_decode_exact_partial`: p c q; `C73_ascii_no_panic_partial`: p c q; `C73_non_ascii_accepted`: p c q; `C73_decode_panics`: p c q |
| C74 | partial | `C74_files_partial`: p q; `C74_left_open`: p q; `C74_error_after_submission`: p q; `cliSubmit_agrees`: p q |
| C75 | partial | `C75_path_partial`: p; `C75_empty_path`: p q |
| C76 | partial | `C76_address_not_passed`: p q; `C76_file_not_passed`: p q |
| C77 | partial | `C77_ledger_accepts_partial`: p c q; `C77_succeeds`: p c q |
| C78 | proved | `C78_accepted_amounts_true`: p c q; `C78_duplicate_input_rejected`: p c q; `C78_uncovered_rejected`: p c q |
| C79 | partial | `C79_dust_change_rejected`: p c q; `C79_dust_output_rejected`: p c q; `C77_succeeds`: p c q |
| C80 | partial | `C80_mixed_networks_rejected`: p c q; `C77_succeeds`: p c q |
| C81 | partial | `C81_oversize_rejected`: p c q; `C77_succeeds`: p c q |
| C82 | partial | `C82_two_keys_rejected`: p c q; `C138_build_first`: p c q |
| C83 | proved | `C83_fresh_independent`: p q; `C83_derive`: p c q; `C83_public`: p c q; `C83_entropy`: p c q; `C83_newXPrv`: p c q; `C83_path`: p c q; `C83_sign`: p c q |
| C84 | partial | `C84_normalize_overwrites`: p c q; `C84_append_overwrites_chain_code`: p c q; `C84_accessors`: p c q |
| C85 | proved | `C85_metadata_wellformed`: p c q |
| C86 | proved | `C86_order_changes_no_size`: p c q; `C86_fee_sufficient_partial`: p c q |
| C87 | partial | `C87_order_free_partial`: p c q; `C87_accepted_only_if_encodings_agree`: p c q; `C87_map_order_rejected`: p c q; `C87_signed_is_submitted_iff`: p c q |
| C88 | partial | `C88_empty_metadata_rejected`: p c q |
| C89 | partial | `C89_mainnet_partial`: p c q; `C89_testnet_rejected`: p c q; `C89_other_types_rejected`: p c q; `C89_written_network_invalid`: p c q |
| C90 | partial | `C90_transfer_accepted_partial`: p c q; `C90_width_rejected`: p c q |
| C91 | partial | `C91_selection`: p q; `C91_no_output_posts_garbage`: p c q |
| C92 | partial | `C92_restore_reports_partial`: p c q; `C92_spaces_pass`: -; `C92_transfer_ignores_mnemonic`: p c q; `C92_transfer_from_public_wallet`: p c q |
| C93 | partial | `C93_ttl_exact`: p c q; `C90_transfer_accepted_partial`: p c q |
| C94 | proved | `C94_restore_base`: p c q; `C94_restore_enterprise`: p c q; `C94_restore_flags`: p c q; `C94_generate`: p c q; `C94_decode`: p c q |
| C95 | partial | `C95_tokens_rejected`: p c q; `C95_transfer_tokens_rejected`: p c q; `C95_ada_only_partial`: p c q |
| C96 | partial | `C96_any_order_before_partial`: p c q; `C96_without_change_rejected`: p c q; `C96_later_calls_balance`: p c q; `C96_output_after_change_rejected`: p c q; `C96_input_after_change_rejected`: p c q; `C96_change_twice_rejected`: p c q; `C96_late_fee_exact`: p c q; `C96_ttl_after_change_rejected`: p c q; `C96_metadata_after_change_rejected`: p c q |
| C97 | partial | `C97_builders_independent`: p c q; `C97_as_if_alone`: p c q; `C97_objects_unchanged`: p c q; `C97_new_objects`: p c q; `C97_write_after_build`: p c q; `C97_write_before_build_rejected`: p c q; `C97_write_input_amount`: p q |
| C98 | proved | `C98_five_passes`: p c q; `C98_two_passes`: p c q; `C98_one_pass`: p c q; `C98_one_pass_rejected`: p c q |
| C99 | proved | `C99_body_is_hashed`: p q; `C99_body_in_bytes`: p c q; `C99_too_early`: p q |
| C100 | proved | `C100_pay_accepted`: p c q; `C100_unsigned_rejected`: p c q; `C100_readme_rejected`: p c q |
| C101 | partial | `C101_dropped_character`: p c q; `C101_wrong_length_partial`: p c q; `C101_added_unnoticed`: p c q; `C101_one_added_unnoticed`: p c q; `C101_other_address`: p c q |
| C102 | proved | `C102_prefix_slip`: p c q; `C102_prefix_exchanged`: p c q |
| C103 | partial | `C103_accepted_text_partial`: p c q; `C103_other_text_panics`: p q; `C103_leading_one`: p c q; `C103_capitals`: p c q |
| C104 | proved | `C104_linear`: p c q; `C104_multiplicative`: p c q; `C104_group`: p c q; `C104_start`: p c q; `C104_tables`: p c q; `C104_untouched`: p c q; `C104_scalar_mult`: p c q; `C104_double_scalar_mult`: p c q; `C104_from_bytes`: p c q; `C104_requests`: p c q; `C104_signatures`: p c q |
| C105 | partial | `C105_byron_rejected`: p c q; `C105_reward_reported`: p c q; `C105_others_partial`: p c q |
| C106 | partial | `C106_bytes`: p q; `C106_collisions`: p q; `C106_not_read_back`: p q; `C106_spendable`: p c q |
| C107 | proved | `C107_only_own_outputs`: p c q; `C107_others_rejected`: p c q |
| C108 | proved | `C108_payment`: p c q; `C108_goes_on`: p c q |
| C109 | proved | `C109_spent_once`: p c q; `C109_not_twice`: p c q |
| C110 | proved | `C110_spendable`: p c q; `C110_real`: p c q |
| C111 | proved | `C111_no_race`: p c q; `C111_answers`: p c q; `C111_variables`: p c q; `C111_ends`: p c q; `C111_signatures`: p c q |
| C112 | proved | `C112_unchanged`: p c q; `C112_reachable`: p c q; `C112_made`: p q; `C112_converted`: p q; `C112_parsed`: p c q; `C112_hash_shared`: p c q; `C112_hash_shared_by_conversion`: p c q; `C112_buffer_shared`: p c q; `C112_parts`: p q; `C112_network_pointer`: p c q; `C112_bytes_fresh`: p c q |
| C113 | proved | `C113_not_paid`: p c q; `C113_ignored_error`: p c q; `C113_returned`: p q; `C113_not_reported`: p c q |
| C114 | proved | `C114_watch_only`: p c q; `C114_real`: p c q |
| C115 | proved | `C115_same_point`: p c q; `C115_key_leaks`: p c q |
| C116 | proved | `C116_no_race`: p c q; `C116_answers`: p c q; `C116_builder`: p c q; `C116_ends`: p c q; `C116_sign_races`: p c q |
| C117 | partial | `C117_plain_partial`: p q; `C117_quoted`: p c q; `C117_cli`: p c q; `C117_refusal`: p q; `C117_hash`: p c q |
| C118 | partial | `C118_first_page`: p q; `C118_all_partial`: p q; `C118_outputs_missing`: p q |
| C119 | partial | `C119_queries`: p q; `C119_same_partial`: p q; `C119_moves`: p q |
| C120 | partial | `C120_rejected`: p c q; `C120_exact_partial`: p c q; `C120_session_partial`: p c q; `C120_bytes_unreported`: p q; `C120_unreported`: p c q |
| C121 | proved | `C121_protocol`: p c q; `C121_tip`: p c q; `C121_inputs`: p c q; `C121_outputs_refused`: p c q |
| C122 | partial | `C122_prints_partial`: p c q; `C122_ids_not_printed`: p c q; `C122_failures`: p q; `C122_stops`: p c q |
| C123 | proved | `C123_does_what_was_asked`: p c q |
| C124 | proved | `C124_expires`: p c q; `C124_exactly`: p c q |
| C125 | partial | `C125_fee_exact`: p c q; `C125_fee_at_most_partial`: p c q; `C125_base_address`: p c q; `C125_enterprise_overpays`: p c q |
| C126 | partial | `C126_refused`: p c q; `C126_filled_partial`: p c q; `C126_witness_set`: p c q |
| C127 | partial | `C127_lists_partial`: p c q; `C127_copied`: p c q; `C127_overwritten`: p c q; `C127_pays_placeholder`: p c q |
| C128 | proved | `C128_paths`: p c q; `C128_public_keys`: p c q; `C128_addresses`: p c q |
| C129 | partial | `C129_fee_panics`: p c q; `C129_rejected`: p c q; `C129_not_reported`: p q; `C129_agree`: p c q |
| C130 | proved | `C130_signature_binds`: p c q; `C130_usable`: p c q; `C130_altered`: p c q; `C130_metadata`: p c q; `C130_only_what_was_issued`: p c q; `C130_zero_scalar`: p c q |
| C131 | proved | `C131_any_order`: p c q |
| C132 | proved | `C132_parent`: p c q; `C132_account`: p c q; `C132_spends`: p c q |
| C133 | proved | `C133_network`: p c q; `C133_one_network`: p c q; `C133_same_id`: p q |
| C134 | proved | `C134_payment`: p c q; `C134_goes_on`: p c q |
| C135 | proved | `C135_strict`: p c q; `C135_cofactor`: p c q; `C135_agree`: p c q; `C135_ledger`: p c q |
| C136 | proved | `C136_size`: p c q; `C136_enough`: p c q; `C136_by_hand`: p c q |
| C137 | proved | `C137_any_order`: p c q |
| C138 | proved | `C138_build_first`: p c q |
| C139 | proved | `C139_deterministic`: p c q; `C139_id`: p q; `C139_metadata`: p c q |
| C140 | proved | `C140_exactly`: p c q; `C140_no_reserve`: p c q |
| C141 | proved | `C141_size`: p c q; `C141_session_size`: p c q; `C141_fee`: p c q; `C141_input_cost`: p c q; `C141_output_cost`: p c q; `C141_lacking`: p c q |
| C142 | proved | `C142_once`: p c q; `C142_again`: p c q; `C142_follow_up`: p c q |
| C143 | proved | `C143_sweep`: p c q; `C143_batches`: p c q |
| C144 | proved | `C144_same_id`: p q; `C144_collected`: p c q; `C144_as_together`: p c q; `C144_succeeds`: p c q; `C144_missing`: p c q; `C144_other`: p c q |
| C145 | proved | `C145_size`: p c q; `C145_later`: p c q; `C145_main_network`: p c q; `C145_rejected`: p c q |
| C146 | proved | `C146_copy`: p c q; `C146_cold`: p c q |
| C147 | proved | `C147_sign`: p q; `C147_public`: p q; `C147_derive`: p q; `C147_root`: p q; `C147_results`: p c q; `C147_verification`: p q; `C147_two_keys`: p c q |
| C148 | partial | `C148_replaced_partial`: p c q; `C148_exchanged_partial`: p c q; `C148_left_out`: p c q; `C148_added`: p c q; `C148_first_unnoticed`: p c q; `C148_case_unnoticed`: p c q |
| C149 | proved | `C149_same_transaction`: p c q; `C149_conservation`: p c q; `C149_accepted_fits`: p c q; `C149_large_change_rejected`: p c q; `C149_listing`: p q; `C149_listing_exactly`: p q; `C149_listing_rows`: p q; `C149_listing_rows_exactly`: p c q |
| C150 | proved | `C150_byron_address`: p c q; `C150_address_bytes`: p c q; `C150_address_text`: p c q; `C150_parameter_file`: p c q; `C150_node_answers`: p c q; `C150_service_parameters`: p q |
| C151 | proved | `C151_reported`: p q; `C151_build_reported`: p q; `C151_fee_zero`: p c q; `C151_rejected`: p c q |
| C152 | proved | `C152_excluded`: p c q; `C152_chain`: p c q |
| C153 | proved | `C153_read_back`: p c q; `C153_read_text`: p c q; `C153_distinct`: p c q; `C153_ordinary`: p q |
