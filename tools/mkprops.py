#!/usr/bin/env python3
"""Writes /verif/properties.jsonl. One P(...) per property."""
import json, os
OUT = os.path.join(os.path.dirname(os.path.abspath(__file__)), "..", "properties.jsonl")
props = []
def P(id, title, statement, quantifier, why, *anchors):
    props.append(dict(id=id, title=title, statement=statement, quantifier=quantifier,
                      why_tests_cant=why, anchors=list(anchors)))

# ---------------------------------------------------------------- addresses
P("C01", "Address bytes round-trip",
  "For every base, enterprise, reward and pointer address on MainNet or TestNet whose credentials are 28-byte key or script hashes, NewAddressFromBytes(a.Bytes()) succeeds and returns an address of the same type equal to a.",
  "all networks in {MainNet, TestNet}, all key/script kinds, all 28-byte hashes, all uint64 slot/tx/cert pointers",
  "2^224-sized payload spaces and 2^192 pointer triples; a test samples a handful of vectors",
  "address/address.go:NewAddressFromBytes", "address/base.go:Bytes", "address/enterprise.go:Bytes", "address/reward.go:Bytes", "address/pointer.go:Bytes")
P("C02", "Address string round-trip",
  "For every well-formed base, enterprise, reward and pointer address a, NewAddress(a.String()) succeeds and returns an address equal to a.",
  "all well-formed Shelley-era addresses",
  "the string form depends on a checksum over the whole payload, so every payload is a different code path through the checksum",
  "address/address.go:NewAddress", "internal/bech32/bech32.go:Encode", "internal/bech32/bech32.go:Decode", "address/pointer.go:String")
P("C03", "Address hex round-trip",
  "For every well-formed Shelley-era address a, NewAddressFromHex of the hex of a.Bytes() (upper or lower case digits) returns a; strings with an odd number of digits or a non-hex digit are rejected with an error.",
  "all well-formed addresses, all strings",
  "unbounded inputs", "address/address.go:NewAddressFromHex")
P("C04", "Byron address round-trip",
  "For every Byron address with a 28-byte root hash, type tag 0, any derivation-path payload and any one-byte network attribute, NewAddressFromBytes(b.Bytes()) returns b, and NewAddress(b.String()) returns b.",
  "all root hashes, payload byte strings of any length, network attribute absent or any uint8",
  "payload is of unbounded length, CBOR heads change width at 24, 256, 65536, 2^32",
  "address/byron.go:MarshalCBOR", "address/byron.go:UnmarshalCBOR", "address/byron.go:String")
P("C05", "Parsing is faithful (no silent rewriting)",
  "Whenever NewAddressFromBytes(data) succeeds with a Shelley-era address, that address serialises back to exactly data.",
  "all byte strings of all lengths, any spare capacity behind the slice",
  "the exceptional inputs (network nibble >= 2, trailing bytes, padded or overflowing variable-length naturals, short slices with spare capacity) are precisely those nobody writes a vector for",
  "address/address.go:NewAddressFromBytes", "address/pointer.go:VariableNatDecode")
P("C06", "Parsing is total",
  "NewAddressFromBytes, NewAddressFromHex and NewAddress return either an address or an error for every input; they never panic.",
  "all byte strings / all strings",
  "requires covering every length and header nibble, and Go's capacity-bounded reslicing",
  "address/address.go:NewAddressFromBytes", "address/address.go:readAddrCred", "address/address.go:NewAddress")
P("C07", "Network is preserved",
  "A parsed address reports the network encoded in the low nibble of its header: 1 gives MainNet, 0 gives TestNet, and any other value is not silently reported as one of these. The human-readable prefix agrees with the reported network.",
  "all headers, all payloads", "16 network nibbles times all address types times all payloads",
  "address/address.go:NewAddressFromBytes", "address/base.go:Prefix", "address/pointer.go:Prefix", "network/network.go")
P("C08", "Bech32 round-trip for every payload",
  "For every valid lower-case human-readable part and every byte string of any length, encoding succeeds and decoding the result returns the same human-readable part and the same bytes.",
  "all hrps of printable non-upper-case ASCII, all byte strings of all lengths",
  "unbounded lengths; every length mod 5 exercises a different padding",
  "internal/bech32/bech32.go:Encode", "internal/bech32/bech32.go:Decode", "internal/bech32/bech32.go:convertBits", "internal/bech32/bech32.go:polymod")
P("C09", "Bech32 detects transcription errors",
  "Take any string accepted by the bech32 decoder. Changing any one character of its data part (checksum included) to another charset character makes it be rejected; so does any change confined to six consecutive data characters; so does changing any two characters less than 1023 positions apart, any three characters of a data part of at most 1023 characters, and any four characters of a data part of at most 89 characters (of at most 99 characters, the length class of base addresses, except in two arrangements of the four positions, for which undetected changes exist).",
  "all accepted strings of all lengths, all positions, all replacement characters",
  "the number of corruptions of the number of valid strings cannot be enumerated; the guarantee is algebraic",
  "internal/bech32/bech32.go:polymod", "internal/bech32/bech32.go:Decode")
P("C10", "Bech32 decoding is canonical",
  "If a lower-case string s decodes to (hrp, data) then encoding (hrp, data) gives back exactly s: no two different lower-case strings denote the same address, and mixed-case strings are rejected.",
  "all strings", "unbounded strings; padding bits and case are the classic sources of malleability",
  "internal/bech32/bech32.go:Decode", "internal/bech32/bech32.go:convertBits")
P("C11", "Bit regrouping preserves the bit string",
  "Re-grouping 8-bit bytes into 5-bit groups (as Encode does) concatenates exactly the bits of the input, most significant first, followed by fewer than five zero bits; the inverse direction accepts exactly the group sequences whose leftover bits number fewer than five and are all zero.",
  "all byte strings of all lengths, although the accumulator is a 32-bit register that overflows after four bytes",
  "accumulator overflow and padding interact only on long inputs",
  "internal/bech32/bech32.go:convertBits")
P("C12", "Header nibble decides the address type",
  "A successful parse returns a base address exactly for header types 0-3, pointer for 4-5, enterprise for 6-7, Byron for 8, reward for 14-15, with key/script credential kinds read from header bits 4 and 5; types 9-13 are always rejected.",
  "all byte strings", "every header byte combined with every payload",
  "address/address.go:NewAddressFromBytes", "address/address.go:readAddrCred")
P("C13", "Address conversions keep credentials",
  "ToEnterprise of a base address keeps its network and payment credential, ToReward keeps its network and stake credential, and the serialised payload bytes are bytes 1..28 respectively 29..56 of the base address.",
  "all base addresses", "all payloads", "address/base.go:ToEnterprise", "address/base.go:ToReward")
P("C14", "Variable-length naturals round-trip",
  "VariableNatDecode(VariableNatEncode(n) ++ rest) = (n, len(VariableNatEncode(n)), nil) for every uint64 n and every suffix; the encoding is the minimal big-endian base-128 form with continuation bits.",
  "all 2^64 numbers, all suffixes", "2^64 inputs with 10 width classes",
  "address/pointer.go:VariableNatEncode", "address/pointer.go:VariableNatDecode")
P("C15", "Variable-length naturals reject overflow",
  "VariableNatDecode never reports a value different from the number the consumed bytes denote (it must reject encodings of numbers >= 2^64).",
  "all byte strings", "only encodings longer than nine bytes expose it",
  "address/pointer.go:VariableNatDecode")
P("C16", "Serialised form identifies the address",
  "Two well-formed addresses (of any Shelley type) with equal Bytes() are equal; two well-formed base/enterprise/reward addresses with equal String() are equal.",
  "all pairs of addresses", "pairs of unbounded objects",
  "address/base.go", "address/enterprise.go", "address/reward.go", "address/pointer.go")
# ---------------------------------------------------------------- transactions
P("C17", "Transaction bytes are well-formed CBOR with the right content",
  "Whenever Tx.Bytes succeeds, an independent RFC 8949 reader accepts the whole output as a single 4-element array [body, witnesses, valid, metadata] where body is the map 0: inputs as [hash, index], 1: outputs as [address, amount], 2: fee, 3: ttl iff nonzero, 7: auxiliary data hash iff present, and witnesses is the map 0: list of [vkey, signature] or empty.",
  "all transactions: any number of inputs/outputs/witnesses, any amounts, any hashes",
  "length-dependent CBOR heads; any number of elements", "tx/tx.go:Bytes", "tx/tx_body.go:TxBody", "tx/tx_input_output.go", "tx/tx_witness_set.go")
P("C18", "Transaction bytes determine the transaction",
  "Two transactions with Shelley-era outputs that serialise to the same bytes have the same inputs (hash and index), the same output address bytes and amounts, fee, ttl, auxiliary hash, witnesses and metadata encoding.",
  "all pairs of transactions", "pairs of unbounded objects", "tx/tx.go:Bytes")
P("C19", "Fee follows the linear formula",
  "Tx.Fee returns TxFeeFixed + TxFeePerByte * len(serialised transaction) (in 64-bit arithmetic) exactly when the transaction serialises, and an error otherwise.",
  "all transactions, all fee parameters", "all sizes", "tx/tx.go:Fee", "fees/linear.go")
P("C20", "The built transaction pays at least the linear fee",
  "After adding inputs and outputs, AddChangeIfNeeded(change) and Build(), the fee recorded in the transaction is at least TxFeeFixed + TxFeePerByte * len(tx.Bytes()).",
  "all inputs/outputs/parameters, any number of signing keys, any change address",
  "depends on width changes of CBOR integers and on the number of witnesses; boundary cases are rare",
  "tx/tx_builder.go:MinFee", "tx/tx_builder.go:AddChangeIfNeeded")
P("C21", "Value is conserved",
  "After AddChangeIfNeeded, the sum of input amounts equals the sum of output amounts plus the fee, as exact integers, whenever the inputs cover outputs plus fee; in 64-bit arithmetic it always does.",
  "all input and output lists", "sums of arbitrarily many amounts", "tx/tx_builder.go:AddChangeIfNeeded", "tx/tx_builder.go:getTotalInputOutputs")
P("C22", "Change is never created out of nothing",
  "AddChangeIfNeeded never adds an output larger than the total input; with insufficient inputs it must not produce a change output.",
  "all input/output lists", "the failing region (inputs < outputs + fee) is an unsigned underflow",
  "tx/tx_builder.go:AddChangeIfNeeded")
P("C23", "Fee estimation has no side effects",
  "Calling MinFee any number of times at any point leaves the builder's transaction unchanged.",
  "all builder histories", "the effect is through an aliased pointer and only visible when the witness set is still empty",
  "tx/tx_builder.go:MinFee")
P("C24", "Build signs the right thing, once per key",
  "Build returns a transaction whose witness list has, for each signing key in order, exactly one entry (public key, signature) whose signature is that key's signature on the 32-byte hash of the body of the very transaction returned; witnesses present before are discarded.",
  "all builder histories, any number of keys", "all histories", "tx/tx_builder.go:Build", "tx/tx_witness_set.go:NewTXWitness")
P("C25", "Build is idempotent",
  "With a deterministic metadata encoding, calling Build twice in a row returns the same transaction (same bytes, same hash), and Build does not change inputs, outputs, fee or ttl.",
  "all builder states", "all histories", "tx/tx_builder.go:Build")
P("C26", "Transaction id is the hash of the serialised body",
  "Tx.Hash is the blake2b-256 of exactly the bytes that Tx.Bytes places as the first element of the transaction array, and does not depend on witnesses or validity flag.",
  "all transactions with a deterministic metadata encoding", "all transactions", "tx/tx.go:Hash", "tx/tx.go:Bytes")
P("C27", "Auxiliary data hash matches the attached metadata",
  "In the bytes returned by Tx.Bytes, the auxiliary data hash in the body is the blake2b-256 of the metadata bytes in the fourth element, whatever order the encoder chooses for Go map entries on each call.",
  "all transactions, all metadata values, all map iteration orders on each of the encoder calls",
  "Go's map iteration order is random per call: a schedule quantifier", "tx/tx.go:CalculateAuxiliaryDataHash", "tx/tx.go:Bytes")
P("C28", "A built transaction is immutable under later builder calls",
  "Operations on the builder after Build do not change the transaction value that Build returned.",
  "all histories after Build", "pointer aliasing between the returned copy and the builder", "tx/tx_builder.go:Build", "tx/tx.go:Tx")
P("C29", "Builder state is the history of calls",
  "After any sequence of AddInputs, AddOutputs, SetTTL, Sign, MinFee, Build calls, the inputs are the concatenation of all added inputs in order, the outputs the concatenation of all added outputs in order, the ttl is the last one set, and the signers are the initial keys followed by those added, in order.",
  "all call sequences of any length", "unbounded histories", "tx/tx_builder.go")
P("C30", "Output addresses are encoded as byte strings",
  "Every output is serialised as a two-element array whose first element is a CBOR byte string holding exactly address.Bytes(), for every supported address type.",
  "all addresses of all types", "all payloads", "tx/tx_input_output.go:TxOutput", "address/reward.go:MarshalCBOR", "address/byron.go:MarshalCBOR")
P("C31", "Transaction inputs keep the given hash",
  "NewTxInput stores exactly the bytes denoted by the hex string; malformed hex is not silently accepted.",
  "all strings", "all strings", "tx/tx_input_output.go:NewTxInput")
# ---------------------------------------------------------------- keys and signatures
P("C32", "Root keys are properly clamped",
  "NewXPrv accepts exactly 32-byte seeds; NewXPrv and FromBip39Entropy return 96 bytes whose scalar half has the three lowest bits clear, bit 255 clear, bit 254 set and bit 253 clear, and whose other bits are the hash output unchanged.",
  "all seeds, all entropies and passwords", "hash outputs cannot be steered by tests", "bip32/bip32.go:NewXPrv", "bip32/bip32.go:FromBip39Entropy", "bip32/bip32.go:NormalizeBytesForce3rd")
P("C33", "Child key arithmetic",
  "Derive(i) returns 96 bytes: scalar = parent scalar + 8 * (first 28 bytes of Z) mod 2^256, nonce half = parent nonce half + (last 32 bytes of Z) mod 2^256 (both little endian), chain code = last 32 bytes of the second MAC, with Z and the MAC computed over tag 0/1 + private key for hardened i >= 2^31 and tag 2/3 + public key otherwise, followed by the little-endian index.",
  "all parent keys, all 2^32 indices", "carry propagation across 32 bytes", "bip32/bip32.go:Derive", "bip32/bip32.go:add28mul8", "bip32/bip32.go:add256bits")
P("C34", "Derived scalars stay valid along every path",
  "Starting from a clamped root key, after any derivation path of fewer than 2^26 steps the scalar is a multiple of 8 and below 2^255, so it is a legal input of base-point multiplication and no addition wrapped.",
  "all roots, all paths of length < 2^26, all MAC outputs", "paths and hash outputs unbounded", "bip32/bip32.go:Derive", "crypto/edwards25519/edwards25519.go:GeScalarMultBase")
P("C35", "Soft derivation commutes with taking public keys",
  "For a non-hardened index the public key of the child is parentPublic + [8 * Z_left]B, where Z depends only on the parent's extended public key and the index; so a watch-only wallet can compute it.",
  "all keys, all indices < 2^31", "needs the group law", "bip32/bip32.go:Derive", "bip32/bip32.go:Public")
P("C36", "Public keys are [k]B",
  "Public().PublicKey() is the 32-byte RFC 8032 encoding of the curve point k*B where k is the little-endian scalar of the private key, for every scalar below 2^255.",
  "all scalars below 2^255", "2^255 scalars; includes carry and table look-ups for every signed digit",
  "bip32/bip32.go:MakePublicKey", "crypto/edwards25519/edwards25519.go:GeScalarMultBase", "crypto/edwards25519/const.go:base")
P("C37", "Signatures verify",
  "For every extended private key with scalar below 2^255 and every message, the 64-byte signature (R, S) returned by Sign satisfies S < l and S*B = R + SHA512(R || A || M)*A with A the public key: it is accepted by any RFC 8032 verifier.",
  "all keys, all messages", "needs the group law and exact modular arithmetic", "bip32/bip32.go:Sign", "crypto/edwards25519/edwards25519.go:ScMulAdd", "crypto/edwards25519/edwards25519.go:ScReduce")
P("C38", "Scalar reduction is exact",
  "ScReduce returns the little-endian encoding of the 512-bit input modulo l, fully reduced; ScMulAdd returns (a*b + c) mod l, fully reduced, for every 256-bit a, b, c; no intermediate 64-bit overflow occurs.",
  "all 64-byte / 32-byte inputs", "2^512 and 2^768 inputs; carry chains", "crypto/edwards25519/edwards25519.go:ScReduce", "crypto/edwards25519/edwards25519.go:ScMulAdd")
P("C39", "Field arithmetic is exact",
  "On limb vectors within the documented bounds FeAdd, FeSub, FeNeg, FeMul, FeSquare, FeSquare2, FeInvert compute +, -, negation, product, square, twice the square and inverse in GF(2^255-19) without 32/64-bit overflow and their results are within the documented bounds again.",
  "all bounded limb vectors", "10 limbs of 26 bits", "crypto/edwards25519/edwards25519.go:FeMul", "crypto/edwards25519/edwards25519.go:FeSquare", "crypto/edwards25519/edwards25519.go:FeCombine", "crypto/edwards25519/edwards25519.go:FeInvert")
P("C40", "Field serialisation is canonical",
  "FeToBytes writes the unique representative in [0, 2^255-19) little-endian; FeFromBytes reads any 255-bit little-endian number (ignoring the top bit) to the field element it denotes.",
  "all bounded limb vectors, all 32-byte strings", "boundary values around p are exponentially rare", "crypto/edwards25519/edwards25519.go:FeToBytes", "crypto/edwards25519/edwards25519.go:FeFromBytes")
P("C41", "Point addition and doubling implement the curve group",
  "geAdd, geSub, geMixedAdd, geMixedSub and Double compute the sum, difference and double of the represented points of -x^2+y^2=1+dx^2y^2 for all inputs, including equal, opposite and neutral points.",
  "all representations of all pairs of curve points", "special cases (doubling through addition, neutral element) are not reachable by random tests", "crypto/edwards25519/edwards25519.go:geAdd", "crypto/edwards25519/edwards25519.go:geMixedAdd", "crypto/edwards25519/edwards25519.go:Double")
P("C42", "Precomputed tables are correct",
  "Entry (i, j) of the base table is (j+1)*256^i*B and entry j of the odd-multiples table is (2j+1)*B, B being the RFC 8032 base point, which has order l.",
  "all 256 + 8 entries (finite, checked in the kernel)", "a wrong entry is used only by scalars with one particular digit in one particular position", "crypto/edwards25519/const.go:base", "crypto/edwards25519/const.go:bi")
# ---------------------------------------------------------------- misc
P("C43", "Fixed-size hash constructors",
  "Each of the ten XxxFromBytes constructors succeeds exactly when the input has the documented length and then holds exactly the input bytes. Blake2b224 and Blake2b256 return exactly the digest of the library, which the constructors accept.",
  "all byte strings", "all lengths and contents", "crypto/crypto.go")
P("C44", "A node client talks to the network it was created for",
  "A client created for MainNet queries and submits to main net, and one created for TestNet to the test net, for both back ends.",
  "all NetworkInfo values", "needs a live node", "node/cardano-cli.go:execCommand", "node/blockfrost.go:getNetwork", "node/blockfrost.go:NewBlockfrostClient")
P("C45", "CLI UTXO listing is parsed without panic",
  "For every well-formed UTXO table printed by the command line tool, the list of inputs returned is the list of rows with their hash, index and lovelace amount.",
  "all tables with any number of rows", "needs a node; any number of rows", "node/cardano-cli.go:UTXOs")
P("C46", "Blockfrost UTXO conversion is faithful",
  "Each UTXO returned by the service becomes one input, in order, with the same transaction hash, the same output index and the lovelace quantity.",
  "all service answers with any number of UTXOs and assets", "any number of entries; index and amount conversions are narrowing", "node/blockfrost.go:UTXOs")
P("C47", "Byron checksum detects corruption",
  "If the root payload of an accepted Byron address is changed within any window of 32 consecutive bits (checksum left alone), or in two bits less than 2^32 - 1 apart, an error is returned.",
  "all accepted addresses, all such corruptions", "algebraic property of the CRC over unbounded payloads", "address/byron.go:UnmarshalCBOR")
P("C48", "Accepted Byron addresses are valid",
  "If NewAddressFromBytes accepts a Byron address then the stored checksum equals the CRC-32 of the tag-24 payload, the root hash has 28 bytes and the type is 0; reported network is MainNet exactly when the network attribute is absent.",
  "all byte strings", "all byte strings", "address/byron.go:UnmarshalCBOR", "address/byron.go:NetworkInfo")
P("C49", "Parsed addresses do not alias the caller's buffer",
  "Changing the byte slice passed to NewAddressFromBytes after it returned does not change the parsed address.",
  "all inputs, all later writes", "aliasing is invisible to value-based tests", "address/address.go:readAddrCred", "address/stake_credential.go")
P("C50", "Fixed header layout and length",
  "Base addresses always serialise to 57 bytes, enterprise and reward addresses to 29, with header = type nibble * 16 + network id, whatever the length of the credential payload slice; pointer addresses with a 28-byte credential to 1 + 28 + the three naturals.",
  "all addresses with key or script credentials and a network id below 16, also with payload slices of a wrong length", "all payload lengths", "address/base.go:Bytes", "address/enterprise.go:Bytes", "address/reward.go:Bytes", "address/pointer.go:Bytes")
P("C51", "Point decompression",
  "FromBytes accepts a 32-byte string exactly when its y coordinate is on the curve, returns a point with that y and, unless x is zero, the requested sign, and ToBytes of any point is accepted and gives back that point.",
  "all 32-byte strings, all curve points", "square roots of 2^255 values", "crypto/edwards25519/edwards25519.go:FromBytes", "crypto/edwards25519/edwards25519.go:ToBytes")
P("C52", "Double-scalar multiplication",
  "GeDoubleScalarMultVartime(a, A, b) computes a*A + b*B for all 256-bit scalars of value below 2^255 and all curve points A.",
  "all scalars, all points", "sliding-window recoding has a carry chain", "crypto/edwards25519/edwards25519.go:GeDoubleScalarMultVartime", "crypto/edwards25519/edwards25519.go:slide")
P("C53", "Minimal-scalar test",
  "ScMinimal(s) is true exactly when the little-endian value of s is below the group order l.",
  "all 32-byte strings", "2^256 inputs; equality boundary", "crypto/edwards25519/edwards25519.go:ScMinimal")
P("C54", "Fee estimation never returns less than the fixed fee",
  "MinFee returns at least TxFeeFixed for every builder state.",
  "all builder states", "encoding errors are swallowed", "tx/tx_builder.go:MinFee")

P("C55", "Checksum is the BIP-173 code",
  "The checksum of the bech32 codec is the BCH code of BIP-173: the register computed over the expanded human-readable part and the data symbols is the remainder, over GF(32), of the polynomial with those coefficients modulo the published generator polynomial, and a string is accepted only if this remainder is 1. So strings are interchangeable with every conforming implementation.",
  "all symbol strings of all lengths", "test vectors cover a handful of strings; a wrong generator bit may be exercised by none of them", "internal/bech32/bech32.go:polymod", "internal/bech32/bech32.go:generator", "internal/bech32/bech32.go:hrpExpand")

P("C56", "A mistyped address is rejected",
  "Take any string with an addr or stake prefix that NewAddress accepts. Change its data part within six consecutive characters, or in two characters less than 1023 apart, or in any three characters of a data part of at most 1023 characters, or in any four characters of an enterprise or stake address (in more than letter case, and not to the separator character). NewAddress returns an error for the result, so funds cannot be sent to a mistyped address.",
  "all accepted strings, all such changes", "the number of mistyped strings is astronomically large", "address/address.go:NewAddress", "internal/bech32/bech32.go:Decode")
P("C57", "An accepted string is the address's own string",
  "If NewAddress accepts a bech32 string s and returns an address then String() of that address is s (up to letter case), so the prefix always matches the type and network of the address.",
  "all strings", "the space of prefixes is unbounded", "address/address.go:NewAddress", "address/base.go:String", "address/reward.go:String")

P("C58", "Builders made from the same key slice are independent",
  "If several builders are created from one slice of keys, the keys each of them signs with are the initial keys followed by exactly the keys given to its own Sign calls, whatever the interleaving of Sign calls on the other builders.",
  "all key slices with any spare capacity, any number of builders, all interleavings of Sign calls", "depends on the capacity of the caller's slice and on call interleaving", "tx/tx_builder.go:NewTxBuilder", "tx/tx_builder.go:Sign")
P("C59", "Signatures cover the submitted body",
  "In the bytes of a transaction returned by Build, the witnesses are signatures on the hash of exactly the body bytes contained in those bytes.",
  "all builder states, all metadata values and all map iteration orders of the encoder calls in Build and Bytes", "Go's map iteration order is random per encoder call, and Bytes recomputes the auxiliary data hash after signing", "tx/tx_builder.go:Build", "tx/tx.go:Bytes", "tx/tx.go:CalculateAuxiliaryDataHash")
P("C60","Every witness of a built transaction verifies",
"When Build succeeds, the transaction carries exactly one witness per signing key, in order; each is an Ed25519 signature of the hash of the transaction's own body that verifies under the public key stored beside it, and that public key is the one of the signing key.",
"all builder states, all lists of keys with scalars below 2^255",
"A test checks one transaction and one key; a slip in serialisation, hashing order, scalar arithmetic or point encoding for other values would make the network reject the transaction.",
"tx/tx_builder.go:Build","bip32/bip32.go:Sign","bip32/bip32.go:MakePublicKey")

P("C61","Different keys have different public keys",
"Two private keys whose scalars are multiples of 8 below 2^255 (as all keys produced by the constructors and Derive are) have the same public key only if their scalars are equal.",
"all pairs of such keys",
"Collisions are invisible to tests; depends on the order of the base point and the injectivity of the encoding.",
"bip32/bip32.go:MakePublicKey","bip32/bip32.go:Public")

P("C62","Service parameters and tip are converted faithfully",
"The protocol parameters and the chain tip returned by the Blockfrost client equal the numbers given by the service.",
"all answers of the service",
"Conversions between signed, decimal and narrower unsigned numbers differ from the identity only outside the range of sampled answers.",
"node/blockfrost.go:ProtocolParameters","node/blockfrost.go:QueryTip")

P("C63","Submission sends exactly the transaction",
"SubmitTx hands the node exactly the bytes of Bytes() (in hexadecimal for the command line tool, as Hex() returns them), to the server of the client's network, and reports an error exactly when the service does not answer 200.",
"all transactions, networks and answers",
"Needs a live node; any transaction.",
"node/blockfrost.go:SubmitTx","node/cardano-cli.go:SubmitTx","tx/tx.go:Hex")

P("C64","The witness for a key matches the addresses made from that key",
"An address built with NewKeyStakeCredential(key.Public().PublicKey().Hash()) as payment credential names (CIP-19) the Blake2b-224 hash of exactly the public key that Build writes into the witness for that key; likewise reward addresses with it as stake credential.",
"all keys, networks, stake credentials and builder states for which Build succeeds",
"Funds sent to an address become unspendable if address construction and witness construction disagree for some key; tests compare single keys.",
"bip32/bip32.go:Hash","address/stake_credential.go:NewKeyStakeCredential","address/base.go:NewBaseAddress","tx/tx_builder.go:Build")

P("C65", "Constructed addresses have the CIP-19 bytes and the CIP-5 prefixes, and networks report the right magic",
  "For both networks and any 28-byte key or script hashes, the bytes of the addresses made by NewBaseAddress, NewEnterpriseAddress, NewRewardAddress and NewPointerAddress are exactly the CIP-19 ones: header (type number times 16 plus 1 for the main and 0 for the test network), payment hash, then stake hash or the pointer as three minimal variable-length naturals. Their text (base, enterprise, reward) is the BIP-173 string of these bytes with prefix addr/stake on the main network and addr_test/stake_test on the test network. A parsed Shelley address with network nibble 1 reports protocol magic 764824073, with nibble 0 1097911063; Byron addresses report the former without and the latter with a network attribute.",
  "all hashes, all credential kinds, all pointers, both networks; all parsed byte strings",
  "Round-trip tests hold for any consistent constants; a sample address checks one type and one network.",
  "address/base.go: NewBaseAddress, Bytes, String, Prefix", "address/enterprise.go: NewEnterpriseAddress", "address/reward.go: NewRewardAddress",
  "address/pointer.go: NewPointerAddress, Bytes", "address/stake_credential.go: NewKeyStakeCredential, NewScriptStakeCredential", "network/network.go: MainNet, TestNet")
P("C66", "The Byron checksum is the IEEE CRC-32 of the payload",
  "Every Byron address accepted by the parser is CBOR [#6.24(payload), c] where c denotes the CRC-32 of the payload in the sense of IEEE 802.3 (remainder of polynomial division over GF(2) with complemented first 32 bits and complemented result), and the bytes written for a Byron address are of that form.",
  "all byte strings; all Byron addresses with 28-byte root",
  "A sample can only compare a few checksums; a wrong table entry shows up for some payloads only.",
  "address/byron.go: Bytes, MarshalCBOR, UnmarshalCBOR")
P("C67", "Bech32 encoding and decoding are exactly BIP-173",
  "For every legal lower-case human-readable part and all bytes, Encode returns a string if and only if it is the BIP-173 string: the part, the digit one, the characters of the 5-bit groups of the bytes padded with fewer than five zero bits, and the six characters that make the remainder over GF(32) modulo the generator polynomial equal to 1. A string without upper-case letters is decoded to a part and bytes if and only if the part is legal and it is the BIP-173 string for them; a string without lower-case letters likewise, in terms of its lower-case form.",
  "all human-readable parts, all byte strings, all strings in one case (for other than ASCII strings see C73)",
  "Round trips hold for any permutation of the alphabet; test vectors cover a few strings.",
  "internal/bech32/bech32.go: Encode, Decode")
P("C68", "The text of a Byron address is its Base58 form",
  "String() of a Byron address is the Base58 text (Bitcoin alphabet) of its bytes: a 1 for each leading zero byte, then the base-58 digits without leading zeros of the number spelled by the other bytes. Conversely a string that does not start with addr or stake and is the Base58 text of some bytes is parsed as these bytes.",
  "all Byron addresses; all byte strings and their Base58 texts",
  "Round trips hold for any alphabet; samples cover a few lengths.",
  "address/byron.go: String", "address/address.go: NewAddress")
P("C69", "Protocol parameters are loaded exactly as the file states them",
  "LoadProtocol returns the parameters p without an error if and only if the file can be read, its contents are one JSON text (RFC 8259, nested at most 10000 deep), and this text states p: it is null (all zero), or an object in which every member named txFeePerByte, txFeeFixed, maxTxSize or minUTxOValue (names compared ignoring case, after resolving escapes) is null or a natural number below 2^64, the last number being the parameter, and every member named protocolVersion is null or an object whose members major and minor are null or natural numbers below 256. Whitespace, order and other members do not matter. A parameter given as anything else (fraction, exponent, negative, too large, string) is an error, never truncated.",
  "all file contents, all protocol parameters",
  "JSON texts are unbounded in size and nesting; a test file has one spelling, one order and no duplicates, escapes or out-of-range numbers.",
  "protocol/protocol.go: LoadProtocol, loadProtocolFromBytes, Protocol, ProtocolVersion")
P("C70", "A parameter missing from the file is not taken to be zero",
  "LoadProtocol returns without an error only if the file states every parameter; a parameter not stated is reported. (Proved: a parameter loaded as non-zero is stated under its name. False in the other direction: every JSON object without the names, and null, load as zero fees, sizes and version without an error.)",
  "all file contents",
  "Tests use complete files; the effect of a missing or misspelt name is a zero fee that shows up only when a transaction is rejected.",
  "protocol/protocol.go: LoadProtocol, loadProtocolFromBytes", "fees/linear.go: NewLinearFee")
P("C71", "Queries through cardano-cli report failures and return what the tool printed",
  "ProtocolParameters and QueryTip of the command line client return a value without an error if and only if the command (query protocol-parameters, query tip) succeeds and prints a JSON text that states that value in the sense of C69 (for the tip: slot, epoch, block below 2^64). A failing command or any other output is reported as an error.",
  "all networks, all behaviours of the process",
  "Tests do not run the tool; the error of the command is overwritten in the code before being checked.",
  "node/cardano-cli.go: ProtocolParameters, QueryTip, execCommand", "node/types.go: NetworkTip")
P("C72", "An address text with characters outside ASCII is rejected",
  "NewAddress, given any sequence of bytes that starts with addr or stake and contains a byte above 127 (look-alike letters, invisible characters, invalid UTF-8), returns an error. On every string it accepts, with the same result, exactly what the byte-wise description of C01-C10 and C67 accepts, although the code compares and converts letters by the Unicode case tables. Encoding is not affected by these tables either.",
  "all byte sequences; all Unicode case tables with the listed entries for ASCII, U+212A and U+0130",
  "There are 2^21 code points and the case tables contain letters whose lower case is an ASCII letter; tests use ASCII strings.",
  "address/address.go: NewAddress", "internal/bech32/bech32.go: Decode, Encode")
P("C73", "The Bech32 decoder accepts only ASCII strings and does not panic",
  "bech32.Decode returns an error for every string that contains a character outside ASCII, and does not panic on any string. (Proved: the exact set of accepted strings, and no panic on ASCII. False: an upper-case string in which letters K of the data part are U+212A, KELVIN SIGN, is accepted with the same result; the decoder panics on CAMARYW1 followed by two such signs, since the length is checked in bytes and the symbols are counted in characters. NewAddress does not reach either, C72.)",
  "all byte sequences; all Unicode case tables with the listed entries",
  "As for C72.",
  "internal/bech32/bech32.go: Decode")
P("C74", "Submitting through cardano-cli leaves nothing behind",
  "Whatever fails during SubmitTx of the command line client (encoding, creating, writing or closing the temporary file, the tool): afterwards the files are those that were there before, and no further file is held open. The tool is run at most once, only after the file has been written, and while it runs the file holds exactly the envelope with the transaction in hexadecimal. (False for open files: the file is not closed when writing or the tool fails. Also an error can be returned after the tool has succeeded, when closing fails.)",
  "all transactions, all behaviours of the operating system and of the tool, all states of the file system in which the temporary name is unused",
  "Tests do not run the tool and cannot make individual file operations fail; a leaked descriptor shows only after many failures.",
  "node/cardano-cli.go: SubmitTx")
P("C75", "The command line client runs the program the user names",
  "NewCardanoCliNode uses the first path given, and cardano-cli if none is given or the path is empty. (False for the empty path: then the program to run has the empty name and every call fails.)",
  "all lists of paths",
  "Tests do not construct the client with an empty path.",
  "node/cardano-cli.go: NewCardanoCliNode")
P("C76", "The address queried and the file submitted reach cardano-cli",
  "UTXOs passes the address to the tool as the value of the option --address, SubmitTx the file as the value of --tx-file, in one of the two ways in which option parsers accept them (two arguments, or one argument with =). (False for all networks, addresses and files: option and value are passed as one argument with a space in it.)",
  "all networks, addresses, transactions, file names",
  "Tests do not run the tool.",
  "node/cardano-cli.go: UTXOs, SubmitTx, execCommand")
P("C77", "The ledger accepts what the builder builds",
  "Let a user with one key spend unspent outputs of that key to valid addresses of one network: NewTxBuilder, AddInputs, AddOutputs, SetTTL, metadata, AddChangeIfNeeded, Build. The calls succeed, and the ledger, which reads the bytes of the result by the CDDL and applies the UTXO and UTXOW rules with the parameters given to the builder, accepts it; it sees the inputs and outputs asked for and, as the last output, the change: total of the inputs minus outputs minus fee. (Proved if the total leaves at least the minimal output value for the change, the size is within the limit, the inputs are distinct, and the fee provisos of C20 hold. Without these it is false: C20, C78-C82.)",
  "all protocol parameters in the stated ranges, all keys, inputs, outputs, metadata with a fixed encoding, all ledger states that agree with the inputs, all slots before the TTL",
  "Acceptance depends on every byte of the transaction, the signature, the hash of the metadata, and on the state of the ledger; tests compare two golden transactions, both of which no ledger accepts (C80).",
  "tx/tx_builder.go: NewTxBuilder, AddInputs, AddOutputs, SetTTL, AddChangeIfNeeded, MinFee, Build", "tx/tx.go: Tx, Bytes, Hash", "bip32/bip32.go: XPrv.Sign, XPrv.Public")
P("C78", "Wrong amounts lead to rejection, not to payment",
  "If the ledger accepts a transaction built with AddChangeIfNeeded, then the amounts of the inputs given to the builder were right in total, each input counted once, and cover outputs and fee: no part of an input becomes fee or is lost because an amount was stated wrongly. In particular a transaction with an input given twice, or with inputs that do not cover outputs and fee, is rejected, although the calls report no error.",
  "all sessions with totals below 2^64, all ledger states",
  "Amounts are added modulo 2^64 and are not part of the signed transaction; tests state them correctly.",
  "tx/tx_builder.go: AddInputs, AddChangeIfNeeded, Build", "tx/tx_input_output.go: NewTxInput")
P("C79", "The builder reports outputs below the minimum",
  "AddChangeIfNeeded and Build do not return a transaction with an output, or a change output, below MinUTXOValue of the protocol parameters given to NewTxBuilder. (False: both are built without an error; proved that the ledger rejects every such transaction.)",
  "all sessions, all ledger states",
  "The limit is in the parameters and is used nowhere in the builder; tests use large amounts.",
  "tx/tx_builder.go: AddChangeIfNeeded, Build", "protocol/protocol.go: Protocol")
P("C80", "The builder reports outputs of different networks",
  "Build does not return a transaction with outputs or change on different networks. (False, and the golden transactions of the repository are of this kind; proved that no ledger, main or test net, accepts such a transaction.)",
  "all sessions, all ledger states and networks",
  "The tests fix this behaviour.",
  "tx/tx_builder.go: AddOutputs, AddChangeIfNeeded, Build")
P("C81", "The builder reports transactions that are too large",
  "Build does not return a transaction larger than MaxTxSize of the protocol parameters given to NewTxBuilder. (False: the limit is not looked at; proved that the ledger rejects these transactions.)",
  "all sessions, all ledger states",
  "Tests use transactions with one input and two outputs.",
  "tx/tx_builder.go: Build", "protocol/protocol.go: Protocol")
P("C82", "Transactions signed by several keys are accepted",
  "As C77, with two or more keys. (False: whenever the fee is at most 200000, the inputs cover it and change goes to a base address, the fee is below the minimum and the ledger rejects.)",
  "all sessions with two or more keys, all ledger states",
  "Tests sign with one key.",
  "tx/tx_builder.go: MinFee, AddChangeIfNeeded, Build, Sign")
P("C83", "Key functions leave their arguments alone and return independent keys",
  "NewXPrv, FromBip39Entropy, Derive, Public and Sign change no byte the caller can see, and the key returned by the first four shares no memory with any slice the caller had: later writes and appends through either are not seen through the other. This holds wherever the arguments lie in memory and whatever their capacity, and for whole derivation paths.",
  "all memories, all well-formed slices, all indices, all room left by the run-time",
  "Aliasing shows only with particular capacities and later writes; tests compare returned values once.",
  "bip32/bip32.go: NewXPrv, FromBip39Entropy, Derive, Public, Sign")
P("C84", "The remaining key functions return independent values",
  "NormalizeBytesForce3rd does not change its argument, and appending to the value of PublicKey leaves the extended public key as it was. (False: the first overwrites its argument and returns it; appending up to 32 bytes to the public key overwrites the chain code.)",
  "all memories, all well-formed slices",
  "Tests do not look at the arguments after the call and do not append.",
  "bip32/bip32.go: NormalizeBytesForce3rd, PublicKey, ChainCode")
P("C85", "Any metadata value is written faithfully",
  "Whatever Go value of booleans, integers of any size, floats, byte slices, strings, slices, maps, structs and tags (nested, nil or empty) is set as metadata: whenever Bytes succeeds, the output is one well-formed CBOR item whose fourth element represents that value: the same numbers (also negative ones), strings, lists in order, and for maps the same entries each exactly once, in some order. The hash in the body is the hash of an encoding of the value.",
  "all metadata values of the named kinds, all transactions, all iteration orders of maps",
  "Nesting is unbounded and the order of map entries is random in every call; tests do not set metadata.",
  "tx/tx.go: Tx, Bytes, CalculateAuxiliaryDataHash")
P("C86", "The order in which maps in the metadata are written changes neither fee nor size",
  "Two runs of the same session (builder, change address, keys) with the same metadata value pay the same fee, give the same outputs including change, and return byte strings of the same length, though map entries may be written in different orders by every encoder call in each run.",
  "all metadata values, all builders, keys and addresses, all iteration orders in each of the encoder calls",
  "MinFee encodes the metadata four times, Build and Bytes three more times, each time in a random order.",
  "tx/tx_builder.go: MinFee, AddChangeIfNeeded, Build", "tx/tx.go: Bytes, Fee, CalculateAuxiliaryDataHash")
P("C87", "The ledger accepts transactions with any metadata value",
  "A transaction with metadata is submitted with the body that was signed, and the body commits to the metadata that is submitted, so that the ledger accepts it if it accepts it without. (False for every value containing a map with two or more entries: there are iteration orders with which the ledger rejects every transaction carrying it, and with which the submitted body is not the signed one. True for values whose maps have at most one entry. Acceptance needs the two encodings in Bytes to have the same hash, and the signed body is the submitted one exactly if the encodings in Build and Bytes have the same hash.)",
  "all metadata values, all transactions, all iteration orders, all ledger states",
  "The outcome is random with every call, and for a map of two entries is right half of the time for each pair of calls.",
  "tx/tx.go: Bytes, Hash, CalculateAuxiliaryDataHash", "tx/tx_builder.go: Build")
P("C88", "A nil map as metadata means no metadata",
  "Setting the metadata to a nil map or slice gives a transaction like one without metadata. (False: an interface holding a nil map is not nil; the body gets the hash of the encoding of null, the fourth element is null, and no ledger state accepts the transaction. The same holds for all metadata that is not a slice or map.)",
  "all values that are not slices or maps, all transactions, all ledger states",
  "Needs the ledger's reading of the result; tests do not set metadata.",
  "tx/tx.go: CalculateAuxiliaryDataHash, Bytes")
P("C89", "Byron addresses of all kinds are understood",
  "Every Byron address as CIP-19 and the Byron CDDL define it (address root, optional derivation path, optional protocol magic, type; payload with checksum) is parsed to an address with this root, path and type, whose Bytes are the same address. (True for public key addresses of the main net. False for all addresses carrying a protocol magic, that is those of every test net, and for script and redemption addresses: all of them are rejected. Conversely what Bytes writes for an address with a network attribute is no Byron address.)",
  "all byte strings that are Byron addresses, both CBOR libraries",
  "Tests parse a handful of main net addresses; the attribute type shows only with a protocol magic.",
  "address/byron.go: ByronAddress, decodeRaw, Bytes", "address/address.go: NewAddressFromBytes")
P("C90", "The example transfer works",
  "Run with a mnemonic the library accepts, against a service that reports parameters, unspent outputs and tip of the test network truthfully, with parameters like those in use and an unspent output of at least 6.2 ada, and with no receiver or the text of any base or enterprise address of the test network: the program posts exactly one transaction, and the ledger accepts it in every slot before its time to live. It spends one output of the wallet at m/1852'/1815'/0'/0/0, pays 5 ada to the receiver and the rest less a fee of at most 0.2 ada to the wallet. (False for amounts between 2^32 + 5 ada + fee and 2^32 + 5.2 ada lovelace: rejected by every ledger state.)",
  "all mnemonics and their entropies, all hash functions with the documented sizes, all services, ledger states, receivers and amounts",
  "The program needs the live service; its failure shows only for amounts in a window of about 0.03 ada around 4300 ada.",
  "examples/transactions/txbuilder/main.go: main, createRootKey, generateBaseAddress", "tx/tx_builder.go: AddChangeIfNeeded, Build", "node/blockfrost.go: UTXOs, ProtocolParameters, SubmitTx")
P("C91", "The example transfer spends a sufficient output or reports that there is none",
  "The transfer spends the first output of at least 6.2 ada, and reports an error if the wallet has none. (False: it spends the last one; if there is none it builds, signs and posts a transaction spending the zero value of an input, which no ledger can read.)",
  "all lists of unspent outputs, all mnemonics, services and receivers",
  "Depends on the wallet's outputs at the time.",
  "examples/transactions/txbuilder/main.go: main")
P("C92", "An invalid mnemonic is reported",
  "The example programs report a mnemonic that the library rejects. (True for restoring addresses. False for the transfer: it goes on with the empty entropy, so that all rejected mnemonics of 24 words give the same wallet, whose keys everybody can compute, and a transfer from it is accepted by the ledger. The check for 24 words accepts 23 spaces.)",
  "all mnemonics, all sets of mnemonics the library accepts, all services and ledger states",
  "The examples are not tested; the wrong wallet is normally empty.",
  "examples/transactions/txbuilder/main.go: createRootKey, init", "examples/address/restore/main.go: main, init")
P("C93", "The example transfer expires 300 slots after the tip",
  "The posted transaction has time to live tip + 300. (Exact for all tips: tip + 300 modulo 2^32, no time to live if that is zero; so it is the stated one for tips below 2^32 - 300, and otherwise the ledger rejects it from a slot long past, or it never expires.)",
  "all slots of the tip, all mnemonics, services, receivers and amounts",
  "Slots above 2^32 - 300 are in the future.",
  "examples/transactions/txbuilder/main.go: main", "tx/tx_builder.go: SetTTL")
P("C94", "The example programs print the right addresses",
  "Restoring prints, for a mnemonic the library accepts and both networks, the BIP-173 text of the CIP-19 base (type 1) or enterprise (type 0) address of the keys at the CIP-1852 paths; unknown networks are reported; generating prints such an address and a signature that verifies under the account key; decoding prints kind and text of every base and enterprise address of the test network. Types above 1 print nothing.",
  "all mnemonics and entropies, both networks, all flags, all hash functions with the documented sizes",
  "The examples are not tested; covers every entropy.",
  "examples/address/restore/main.go: main, generateBaseAddress, generateEnterprise", "examples/address/generate/main.go: main", "examples/address/simple_decode/main.go: main")
P("C95", "Native tokens are kept",
  "A transaction that spends an output holding native tokens carries them to the change. (False: the package knows only ada. The tokens are not lost: no state of a ledger with tokens accepts such a transaction. Without tokens, acceptance is that of C77.)",
  "all sessions with the builder, all inputs, all assets, all ledger states",
  "Tests have no tokens and no ledger.",
  "tx/tx.go: TxOutput", "tx/tx_builder.go: AddChangeIfNeeded", "node/blockfrost.go: UTXOs")
P("C96", "The order of the calls on the builder does not matter",
  "Inputs, outputs, time to live, keys and metadata may be given to the builder in any order, and the ledger accepts the result under the same conditions. (True for everything before AddChangeIfNeeded, and for keys and MinFee also after it. False for what comes after: without AddChangeIfNeeded the fee is zero; inputs, outputs or a second AddChangeIfNeeded after it unbalance the transaction; a time to live or metadata after it are not paid for. The ledger rejects each of these; nothing is paid by mistake.)",
  "all sequences of calls before and after, all inputs, outputs, keys, metadata, parameters in the usual range, all ledger states",
  "Unit tests call in one order and have no ledger; the claim is about all sequences.",
  "tx/tx_builder.go: AddInputs, AddOutputs, SetTTL, Sign, MinFee, AddChangeIfNeeded, Build")
P("C97", "Builders can share inputs and outputs",
  "TxInput and TxOutput objects may be given to several builders, and calls on the builders may be interleaved: MinFee, Build and Bytes of each builder return what they return for a builder alone, and no object of the caller is written to: what NewTxInput and NewTxOutput returned keeps the values it was made with. (True as long as the caller does not write to an object after giving it away. The builder keeps the pointer: writing to an output after Build changes the bytes of the built transaction, whose signatures are then for another body; writing another amount before Build, after AddChangeIfNeeded, unbalances the transaction and the ledger rejects it; writing the amount of an input then has no effect.)",
  "all programs: all sequences of calls on any number of builders, all sharing, all capacities the runtime may choose",
  "Sharing shows only in programs with several builders, and depends on spare capacity behind slices (MinFee appends to the builder's own slice).",
  "tx/tx_builder.go: NewTxBuilder, AddInputs, AddOutputs, MinFee, AddChangeIfNeeded, Build", "tx/tx_input_output.go: NewTxInput, NewTxOutput", "tx/tx_body.go: TxBody")
P("C98", "Repeating Fee and SetFee reaches the exact fee",
  "For a transaction made by hand, calling Fee and SetFee five times sets exactly the linear fee of the transaction as it then is, whatever the fee was before, and changes nothing else but the auxiliary data hash; with a fixed part of at least 65536 and fees below 2^32 twice is enough. (Once is not: the fee is then off by the price of the bytes by which the fee field has grown, and a ledger with these parameters rejects the transaction if the fee was not set before.)",
  "all transactions that serialise, all fee parameters without overflow, all metadata that is always encoded to the same size, all previous fees",
  "The fee is part of what is priced; whether the iteration settles, and how fast, is a claim about all sizes and parameters.",
  "tx/tx.go: Fee, SetFee", "fees/linear.go: LinearFee")
P("C99", "The bytes of the body are what the transaction id is the hash of",
  "After a successful Hash, TxBody.Bytes returns bytes whose Blake2b-256 hash is the result, and TxBody.Hex the same in hexadecimal; after a successful Tx.Bytes it returns the first element of the transaction, which is what the ledger hashes. (Not before: with metadata, and none of these functions called yet, TxBody.Bytes lacks the 35 bytes of the auxiliary data hash.)",
  "all transactions, all metadata, all hash functions",
  "Tests compare a few literals; the dependence on earlier calls shows only with metadata.",
  "tx/tx_body.go: Bytes, Hex", "tx/tx.go: Hash, Bytes, CalculateAuxiliaryDataHash")
P("C100", "Transactions made and signed by hand are accepted by the ledger",
  "Without the builder: a transaction with placeholder witnesses for all keys, five times Fee and SetFee, the fee taken from the change, Hash, one witness for each key, Bytes. The ledger accepts it for any number of keys, if the inputs are unspent outputs of these keys, stated correctly, the receiving addresses are of the network, the size is allowed and there is enough to keep outputs and change above the minimum. Without witnesses no ledger state accepts; the program in the README is of that kind.",
  "all keys, inputs, outputs, change addresses, fee parameters, times to live, deterministic metadata and ledger states",
  "Acceptance is a property of the ledger rules and all amounts; tests compare bytes with literals.",
  "tx/tx.go: NewTx, AddInputs, AddOutputs, SetFee, Fee, Hash, Bytes, Hex", "tx/tx_witness_set.go: NewTXWitness, NewVKeyWitness", "README.md")
P("C101", "A character left out or added in an address text is noticed",
  "If one character of the data part of the text of a base, enterprise or reward address is left out, NewAddress returns an error. So it does for every other number of missing or added characters in the text of an enterprise or reward address, as long as the first two data characters stay (and, if only the six characters of a checksum are left, it gives no address but may panic). (Not for base addresses: bytes after the 57th are ignored, and a Bech32 text that ends in p stays valid when q's are put before the p; the longer text is read as the same address. There are base addresses whose text is read as another address, of other keys, when a single character is typed twice.)",
  "all well-formed base, enterprise and reward addresses, all positions, all other changes made at the same time that do not add a 1",
  "Bech32 itself does not promise to detect insertions and deletions; whether they are noticed depends on lengths and padding for all texts.",
  "address/address.go: NewAddress, NewAddressFromBytes", "internal/bech32/bech32.go: Decode, convertBits")
P("C102", "A wrong prefix is noticed",
  "If NewAddress accepts a text with one of the prefixes addr, addr_test, stake and stake_test, then it refuses, with an error, the same data part after another of these prefixes, and after a prefix with one character replaced, left out or added or two neighbours exchanged (if it still begins with addr or stake).",
  "all accepted texts, all slips",
  "The prefix is not compared with the network and the type of the address (C57); only the checksum over all data protects it.",
  "address/address.go: NewAddress", "internal/bech32/bech32.go: hrpExpand, polymod, verifyChecksum")
P("C103", "Text that is neither a Bech32 nor a Byron address is rejected",
  "NewAddress returns an error for text that is neither Bech32 with a valid checksum nor the Base58 text of a Byron address. (False. Text that does not begin with addr or stake is decoded as Base58 and may denote any type of address, without a checksum: whatever begins with a single 1 and goes on with 78 or more Base58 characters is accepted as a test net base address. Text with a character outside the Base58 alphabet makes NewAddress panic. Address text in capitals, which BIP-173 allows, is never read correctly: NewAddress panics or, for main net base addresses whose text has no 0, returns a main net base address with other credentials, always a payment key hash beginning with a4e7f5.)",
  "all strings; all well-formed addresses in capitals",
  "A claim about all strings; the wrong results for capitals depend on numbers with more than a hundred digits.",
  "address/address.go: NewAddress")
P("C104", "Results may overwrite arguments, and no call changes the tables",
  "In the functions of edwards25519 the result may be the same variable as an argument, in every combination the types allow; it gets the value of the operation on the old arguments, and no other variable changes (FeToBytes, FeIsNegative and FeIsNonZero normalise their argument in place). Whatever sequence of calls a program makes on its own variables, the constants and the tables of the package stay as they are, and multiplication by scalars and decoding stay correct; so the public keys and signatures a process computes are the same in whatever order and number they are requested, and the signatures are valid.",
  "all memories, all pointers, all sequences of calls of the exported functions on variables of the caller (scalars below 2^255), all lists of requests for keys and signatures",
  "A corrupted table or an operation that reads a limb after overwriting it shows only for some combinations of pointers or only in later calls.",
  "crypto/edwards25519/edwards25519.go: FeAdd, FeSub, FeMul, FeInvert, FeToBytes, geAdd, geMixedAdd, selectPoint, GeScalarMultBase, GeDoubleScalarMultVartime, FromBytes", "crypto/edwards25519/const.go: base, bi", "bip32/bip32.go: MakePublicKey, Sign")
P("C105", "Payments to every kind of address can be submitted, or an error is reported",
  "Whatever calls are made on a builder, if one of them pays to an address, as output or as change, then Build reports an error or the bytes of the transaction have, as the CDDL demands, a byte string as address of every output. (False for Byron addresses: proved that nothing is reported, that the bytes never follow the CDDL, and that no ledger state accepts them; for reward addresses Build reports an error; for the other three kinds the outputs are as demanded.)",
  "all sequences of calls, all addresses, all ledger states",
  "The tests pay to base addresses only; what is wrong is seen only by a reader of the CDDL.",
  "tx/tx_builder.go: AddOutputs, AddChangeIfNeeded, Build", "address/byron.go: MarshalCBOR", "address/reward.go: MarshalCBOR")
P("C106", "Credentials of a wrong length are reported",
  "A credential that is not 28 bytes long (such as a public key in place of its hash) is reported when the address is made, written or paid to. (False: the constructors and Bytes accept every length; base, enterprise and reward addresses cut it or fill it with zeros, pointer addresses write it as it is; different credentials give one address; such an address is never read back as it was; what is paid to it can be spent only with a key whose hash is the cut or filled credential.)",
  "all payloads of all lengths, all networks and kinds, all sequences of calls that spend such an output, all ledger states",
  "Tests use hashes of the right length.",
  "address/stake_credential.go: NewKeyStakeCredential, NewScriptStakeCredential", "address/base.go: Bytes, NewBaseAddress", "address/enterprise.go: Bytes", "address/reward.go: Bytes", "address/pointer.go: Bytes")
P("C107", "Only outputs of the given keys are spent",
  "If the ledger accepts the transaction made by any sequence of calls on a builder, then every input added by these calls is an unspent output locked by the hash of the public key of one of the keys given to NewTxBuilder or Sign; with an input at an address of another key, a script, a Byron address or a reward address the transaction is rejected.",
  "all sequences of calls, all keys, all ledger states and parameters",
  "Quantifies over call sequences, keys and ledger states; tests do not run a ledger.",
  "tx/tx_builder.go: NewTxBuilder, Sign, AddInputs, Build")
P("C108", "A user can go on spending change",
  "A user with one key keeps a list of unspent outputs: after a payment those spent are removed, and the change is added with the id returned by Hash, the position of the last output and its amount. If every payment is made from distinct outputs of the list, with change to an address of the key, and within the conditions of C77 on amounts, sizes and the fee, then through any number of payments, receipts and transactions of others the ledger accepts every payment, the list stays a list of unspent outputs of the key with their true amounts, the recipients hold what they were sent, and the total of the list is what was received less what was paid and the fees. (The id of each payment must be new to the user.)",
  "all sequences of payments, receipts and transactions of others, all ledger states, keys, parameters, slots",
  "A claim about executions of any length in which later transactions spend outputs of earlier ones.",
  "tx/tx_builder.go: AddInputs, AddOutputs, AddChangeIfNeeded, Build", "tx/tx.go: Hash, Bytes", "tx/tx_input_output.go: NewTxInput")
P("C109", "A transaction takes effect once",
  "After the ledger has accepted a transaction made by any calls on a builder, and whatever transactions it accepts afterwards, it accepts neither the same bytes again nor any other transaction of the package that has one of the inputs; so a submission that was reported as failed may be repeated. (Ids of transactions are not used again.)",
  "all sequences of calls, all later histories of the ledger, all ledger states",
  "Quantifies over all histories between two submissions.",
  "tx/tx_builder.go: AddInputs, Build", "tx/tx.go: Bytes", "node/blockfrost.go: SubmitTx")
P("C110", "What is paid to a wallet can be spent after restoring it from the entropy",
  "For every entropy, password and derivation path the key and the text of its base or enterprise address can be made. Whoever passes this text to NewAddress and pays to the result with this package, in whatever order of calls, makes, when the transaction is applied, an unspent output that the ledger lets the holder spend with the key derived again from the entropy, under the conditions of C77, giving as input the id of the transaction, the position of the output and its amount.",
  "all entropies, passwords, paths of fewer than 2^26 steps, both networks, all stake credentials of 28 bytes, all paying transactions, all ledger states; also with SHA-512, HMAC, PBKDF2 and Blake2b as defined by the standards",
  "Goes through every package: key derivation, curve arithmetic, hashing, address text, encoding, fee, signature; a slip in any of them that shows only for some keys loses money.",
  "bip32/bip32.go: FromBip39Entropy, Derive, Public, Sign", "address/base.go: NewBaseAddress, String", "address/enterprise.go: NewEnterpriseAddress", "address/address.go: NewAddress", "tx/tx_builder.go: Build", "tx/tx_input_output.go: NewTxInput")
P("C111", "Keys and signatures can be computed by several goroutines at the same time",
  "Goroutines that call the functions of edwards25519 on variables of their own, MakePublicKey and Sign at the same time, with their single accesses to memory interleaved in any order, never race for the constants and tables of the package. Each gets the public keys, signatures and field and group elements that it would get alone; signatures are valid; the tables are unchanged at every moment; and each finishes after a number of its own steps that the others have no influence on.",
  "all numbers of goroutines, all lists of calls and requests, all interleavings, all moments",
  "A race shows, if ever, under one interleaving of millions; the race detector sees only the interleavings that happen.",
  "crypto/edwards25519/edwards25519.go: all functions", "crypto/edwards25519/const.go", "bip32/bip32.go: MakePublicKey, Sign")
P("C112", "Nothing but an assignment to the address or to its hash bytes changes an address",
  "Whatever a program makes, converts, parses and prints with the address package, and whatever it assigns to the networks, credentials and addresses it has used, an address keeps its bytes, text and network unless the program assigns to a field of this address (also through the pointer that NetworkInfo() gives) or to a byte of its hashes. Constructors and conversions copy the network and the kinds of credentials at the moment of the call; the bytes of the hashes stay shared with the slice they were given, with the parsed buffer and between a base address and the addresses converted from it. The slice that Bytes() gives is new.",
  "all programs of any length, all numbers of objects, all ways in which pointers and slices overlap",
  "Tests look at an address right after making it; sharing shows after later assignments to other objects.",
  "address/base.go: NewBaseAddress, ToEnterprise, ToReward, NetworkInfo, Bytes", "address/enterprise.go", "address/pointer.go", "address/reward.go", "address/address.go: NewAddressFromBytes, readAddrCred", "address/stake_credential.go", "network/network.go")
P("C113", "A payment to what NewAddress returns together with an error is never made",
  "If a caller ignores the error of NewAddress, NewAddressFromHex or NewAddressFromBytes and pays to the returned value, as an output or as change, then whatever other calls are made on the builder, an error is reported or the ledger rejects the transaction, so that nothing is lost.",
  "all texts, all sequences of builder calls, all keys, metadata and ledger states",
  "The returned value is nil or a partly read Byron address, and the builder takes it without an error; only the rules of the ledger decide.",
  "address/address.go: NewAddress, NewAddressFromHex, NewAddressFromBytes", "tx/tx_builder.go: AddOutputs, AddChangeIfNeeded, Build", "tx/tx_input_output.go: NewTxOutput", "tx/tx.go: Bytes")
P("C114", "A watch-only wallet sees the addresses that can be spent from",
  "Whoever has only the extended public key that Public() gives for an account, and derives public keys by the rules of BIP32-Ed25519 for steps below 2^31, computes for every such path the address text that the package makes from the private key; derivation never fails and has one result; and what is paid to that text can be spent with the key restored from the entropy.",
  "all entropies and passwords, all account paths, all paths of soft steps, both networks, all stake credentials",
  "It joins key derivation, public keys, credentials, address texts and spending; tests compare single vectors.",
  "bip32/bip32.go: Derive, Public, PublicKey, Hash", "address/base.go: NewBaseAddress", "address/enterprise.go: NewEnterpriseAddress", "address/address.go: NewAddress", "tx/tx_builder.go: Build")
P("C115", "Signatures of different messages do not share their point",
  "Two signatures made by Sign, of any messages with any keys, begin with the same point exactly if the SHA-512 values of secret half and message are congruent modulo the group order; and if that happened for two messages of one key with different hash values in the verification equation, the secret scalar could be computed from the two signatures.",
  "all keys with scalars as made by derivation, all pairs of messages",
  "Nonce reuse cannot be observed on a sample of messages, and that it reveals the key is a statement about arithmetic modulo the group order.",
  "bip32/bip32.go: Sign", "crypto/edwards25519/edwards25519.go: GeScalarMultBase, ScReduce, ScMulAdd")
P("C116", "Goroutines with builders of their own can share inputs, outputs and keys",
  "Any number of goroutines make builders and call them at the same time, with inputs, outputs and slices of keys that they share; what a goroutine does next may depend on the answers it got. If no goroutine calls Sign on a builder made from a slice with spare capacity, there is no data race, shared objects stay as they are, every goroutine finishes, and all its results of MinFee, Build and Bytes are those it would get alone. (Without the condition it is false: two calls of Sign race, and a goroutine may build a transaction signed with the key of another in place of its own.)",
  "all numbers of goroutines, all programs of calls, all interleavings of single reads and writes of shared memory, all contents of the shared objects",
  "The number of interleavings is unbounded; a race detector sees only the runs it is given.",
  "tx/tx_builder.go: NewTxBuilder, Sign, MinFee, AddChangeIfNeeded, Build", "tx/tx.go: Bytes, Hash, Fee", "tx/tx_input_output.go: TxInput, TxOutput")
P("C117", "The string returned by SubmitTx identifies the transaction",
  "What SubmitTx returns without an error is the id of the transaction: used with NewTxInput it refers to the outputs of the submitted transaction, so that they can be spent next.",
  "all transactions, all clients, all services and tools that accept the transaction and answer in their format", "Needs a service; a mock answers what its author thinks the service answers.",
  "node/blockfrost.go:SubmitTx", "node/cardano-cli.go:SubmitTx", "node/node.go:Node", "tx/tx_input_output.go:NewTxInput")
P("C118", "UTXOs lists all unspent outputs of the address",
  "UTXOs of the Blockfrost client returns every unspent output of the address, however many there are.",
  "all addresses, any number of unspent outputs", "The service answers in pages; a test with a few outputs sees one page only.",
  "node/blockfrost.go:UTXOs")
P("C119", "A Blockfrost client stays with one network",
  "Queries and submissions of a client go to the same server for the whole life of the client, whatever the program does with the NetworkInfo value it passed to the constructor.",
  "all clients, all later changes of the value", "Depends on aliasing between the client and a value of the program.",
  "node/blockfrost.go:NewBlockfrostClient", "node/blockfrost.go:getNetwork", "node/blockfrost.go:SubmitTx", "network/network.go:TestNet")
P("C120", "Metadata that the chain does not allow is reported",
  "If the metadata of a transaction is not of the form that the ledger prescribes (a map from labels, which are natural numbers, to integers, byte strings and texts of at most 64 bytes, lists and maps of such), then Build or Bytes returns an error; if it is, the ledger does not reject the transaction because of it.",
  "all Go values made of nil, booleans, integers of any size, floats, byte slices, strings, slices, maps, structs and tags, at any depth; all transactions and sessions",
  "values are trees of any depth and size; what the ledger allows is not written anywhere in the package",
  "tx/tx.go:Bytes", "tx/tx.go:CalculateAuxiliaryDataHash", "tx/tx_builder.go:Build")

P("C121", "What is saved as JSON is loaded unchanged",
  "Protocol parameters that a program writes to a file with json.Marshal or json.MarshalIndent are loaded by LoadProtocol as the same parameters, without an error. The same holds, with json.Unmarshal, for a tip and for a list of transaction inputs (as returned by UTXOs). (For transaction outputs it is false: json.Unmarshal refuses them, whatever the address.)",
  "all parameters, all tips, all lists of inputs with hashes of any length, any whitespace as indentation",
  "Values of 64 bits and lists of any length; the field that embeds an interface, omitted zeros and base64 must all agree with the decoder.",
  "protocol/protocol.go: Protocol, LoadProtocol", "node/types.go: NetworkTip", "tx/tx_input_output.go: TxInput, TxOutput")
P("C122", "The node example prints what the service answered",
  "The program examples/node prints the protocol parameters, the tip, and the unspent outputs of the address with their transaction ids, each as a JSON text, and ends with an error at the first question that was not answered.",
  "all services, all texts of addresses, any number of unspent outputs", "The program needs a service with a project id; nothing checks what it prints.",
  "examples/node/main.go: main, prettyPrint", "node/blockfrost.go: ProtocolParameters, QueryTip, UTXOs")

P("C123", "An accepted transaction does what was asked for, and nothing else",
  "Whatever is called on a transaction builder, in whatever order: if the ledger accepts the bytes of what Build then returns, the unspent outputs afterwards are those given to AddOutputs, with address and amount, and one for each AddChangeIfNeeded at the address given, numbered in the order of the calls under the id that Hash reports; of the others exactly those given to AddInputs are gone; and what is spent is what is paid plus the fee.",
  "all sequences of calls, all keys, addresses and amounts, all states and parameters of the ledger",
  "The sequences of calls and the states of the ledger are unbounded, and the effect is that of bytes read by another program.",
  "tx/tx_builder.go: TxBuilder (all methods)", "tx/tx.go: Tx.Bytes, Tx.Hash")
P("C124", "A transaction expires at the slot that was set",
  "Whatever is called on a transaction builder: from the slot given in the last call of SetTTL on, the ledger does not accept the transaction, in any state; before that slot the time plays no part. If SetTTL is not called, or with 0 in the last call, the transaction never expires.",
  "all sequences of calls, all slots, all states and parameters of the ledger", "All sequences of calls and all slots; the test suite sets no time to live at all.",
  "tx/tx_builder.go: SetTTL", "tx/tx_body.go: TxBody")
P("C125", "The fee is not more than needed",
  "With one key, the fee of a transaction built after AddChangeIfNeeded is not above the least fee that the ledger asks for a transaction of its size. (True for change to a base address and fees up to 200000; in general the excess is at most the price of the bytes by which the change address is shorter than a base address and of eight more. For change to an enterprise address it is the price of 28 bytes.)",
  "all inputs, outputs, metadata and change addresses; fee parameters of the order of those in use",
  "The excess depends on sizes of addresses and of encoded amounts that interact; a test sees single amounts.",
  "tx/tx_builder.go: MinFee, AddChangeIfNeeded")

P("C126", "A transaction can be decoded from its bytes",
  "cbor.Unmarshal of the bytes that Bytes returns, into a Tx (declared or from NewTx), gives no error and a transaction with the same inputs, outputs, fee, time to live, auxiliary data hash, witnesses, flag and metadata: the package says its types are for serialization and deserialization. (False for every transaction with an input or an output: there is an error, inputs are left empty and addresses nil. The other parts are right.)",
  "all transactions, all limits of the decoder", "All transactions; a test on a transaction without inputs and outputs would pass, and the test suite decodes none.",
  "tx/tx.go: Tx", "tx/tx_body.go: TxBody", "tx/tx_input_output.go: TxInput, TxOutput", "tx/tx_witness_set.go: Witness, VKeyWitness", "tx/README.md")

P("C127", "Lists taken from a transaction stay as they are",
  "A list of inputs or outputs that a user has read from Tx().Body, or has made from it with append, keeps its elements whatever is called on the builder afterwards. (False: MinFee, and so AddFee, AddChangeIfNeeded and Build, append a placeholder output in the spare capacity of the builder's array. A list read from the body is not changed; one that was extended with append loses what was appended, and a second transaction made with it pays the address written in the source of the package.)",
  "all reachable transactions, all sequences of calls, all capacities that append may choose", "Whether append finds spare capacity depends on the number of outputs so far; tests with one output see no difference.",
  "tx/tx_builder.go: TxBuilder.MinFee, TxBuilder.AddChangeIfNeeded, TxBuilder.AddOutputs", "tx/tx.go: Tx.AddOutputs")
P("C128", "Different derivation paths give different keys and addresses",
  "From one root key, two different paths lead to different extended private keys, and two different indices after one path give different public keys and different address texts, on whatever networks and with whatever stake parts; unless one of the hash functions collides on inputs that occur on those paths, or, for paths of different lengths, one of them passes through the root key again.",
  "all root keys, all paths, all indices, all networks and stake parts", "Pairs of paths; tests derive a few.",
  "bip32/bip32.go: XPrv.Derive, XPrv.Public, XPub.PublicKey, MakePublicKey, FromBip39Entropy", "address/base.go: NewBaseAddress", "address/enterprise.go: NewEnterpriseAddress")

P("C129", "Transactions with something missing are reported",
  "If a transaction has a nil body, witness set, list, input, output or witness, an input without hash, an output without address, or a witness without key or signature, then Bytes and Build return an error. (False: null is written in its place and signed, and no ledger state accepts the result. MinFee and AddChangeIfNeeded report nothing either: they panic, exactly if body or witness set is nil or there is a nil input or output.)",
  "all transactions with nil in any combination of places, all keys, metadata, protocol parameters and ledger states",
  "The places are combined freely, and that no ledger state accepts the result is a statement about all states.",
  "tx/tx.go: Tx, Bytes, Hash, Fee, CalculateAuxiliaryDataHash", "tx/tx_builder.go: MinFee, AddChangeIfNeeded, Build, getTotalInputOutputs", "tx/tx_input_output.go: TxInput, TxOutput", "tx/tx_witness_set.go: Witness, VKeyWitness")
P("C130", "A transaction altered on its way is rejected",
  "Whoever sees a built transaction and puts one of its witnesses (key and signature) into any other bytes gets nothing accepted but a transaction with the same inputs, outputs, fee, time to live and metadata hash, with the same effect on the unspent outputs: in no state does the ledger accept it otherwise. Likewise, as long as others have no signatures of a key but those in transactions that the user has built, whatever spends an output of that key has the effect of one of these transactions. The only exceptions are different bodies for which the hashes in the signature equation are congruent modulo the group order; a signature is valid for another message exactly if they are.",
  "all builders, keys whose scalar is not a multiple of the group order (all derived keys), all other bytes, all ledger states and parameters, all hash functions",
  "The attacker may choose any bytes at all, and the ledger may be in any state.",
  "bip32/bip32.go: XPrv.Sign, XPub.PublicKey", "tx/tx_builder.go: Build", "tx/tx.go: Bytes, Hash")
P("C131", "Transactions without common inputs can be submitted in any order",
  "Given any number of built transactions that the ledger would accept now, no two of them with a common input and none spending an output of another: in whatever order they reach the ledger, all are accepted, and the unspent outputs in the end are the same.",
  "all numbers of transactions, all builders, all orders, all ledger states and parameters, all hash functions without a collision among the bodies",
  "The number of orders grows with the factorial of the number of transactions, and the ledger states are unbounded.",
  "tx/tx_builder.go: Build, AddInputs", "tx/tx.go: Bytes, Hash", "tx/tx_body.go: TxBody")
P("C132", "The public key of an account and one private key below it give everything",
  "Whoever has the extended public key of an account (as a wallet gives it to a server that watches) and the private key of one of its addresses can compute the private key of the account, all 96 bytes, and with it those of all its addresses, and spend what they hold. For hardened indices the computation leads elsewhere. Users of the package must treat a private key of an address as a key of the whole account once the extended public key is known.",
  "all entropy, passwords and account paths, all paths of soft indices below, all hash functions",
  "The claim is about a computation that is not in the package, on keys of any derivation tree.",
  "bip32/bip32.go: XPrv.Derive, XPrv.Public, XPub.PublicKey, XPub.ChainCode")
P("C133", "A transaction is for one network only",
  "If a ledger accepts a built transaction, every address in it (change included) reports the network id of that ledger; so a transaction that pays anything and is accepted on one network is accepted on no network with another id, whatever is unspent there and whatever the parameters. Networks with the same id (the test networks) are told apart by nothing in the addresses: the protocol magic that NetworkInfo carries is in no Shelley address.",
  "all builders, all networks, all ledger states, parameters and slots, all hash functions",
  "A test would have to try every state of the other network.",
  "address/address.go: Address.Bytes, Address.NetworkInfo", "network/network.go: NetworkInfo", "tx/tx_builder.go: Build")
P("C134", "A wallet with many keys goes on",
  "A wallet that has a key of its own for every output it holds, and makes its payments with the functions of the tx package itself (inputs, outputs, five passes of the fee, change, a witness for every key), can go on for any number of payments: signing never fails, the ledger never refuses, the recipients own what they were sent, and the wallet knows after every payment the unspent outputs, their amounts and their keys, the change being recorded under the hash of the transaction and the last index. The total held is what was received less what was paid and the fees.",
  "all sequences of payments, receipts and transactions of others, all sets of keys, all networks and protocol parameters, all ledger states, all hash functions",
  "The property is about executions of any length with any number of keys, where each payment spends the change of others.",
  "tx/tx.go: NewTx, AddInputs, AddOutputs, Fee, SetFee, Hash, Bytes", "tx/tx_witness_set.go: NewTXWitness, NewVKeyWitness", "tx/tx_input_output.go: NewTxInput", "bip32/bip32.go: XPrv.Sign")
P("C135", "Strict verifiers accept the signatures",
  "A signature made with XPrv.Sign passes the checks of strict verifiers (as in libsodium, which the Cardano node uses) too: canonical encodings of both points and of the scalar, neither point of small order; with the single exception of messages whose nonce hash is a multiple of the order of the base point, for which the strict verifier refuses. Verifiers that multiply by the cofactor accept as well. A ledger that verifies strictly accepts a built transaction exactly if one that verifies as RFC 8032 says does, but for that exception.",
  "all usable keys, all messages, all built transactions, ledger states and parameters, all hash functions",
  "Tests use one verifier on a few messages; the verifiers differ on a set of inputs that no test meets.",
  "bip32/bip32.go: XPrv.Sign, MakePublicKey", "crypto/edwards25519/edwards25519.go: GeScalarMultBase, ScMulAdd", "tx/tx_builder.go: Build, Sign")
P("C136", "With enough in hand a payment succeeds",
  "How many bytes a transaction has at most is known before it is built: 85 + 38 per input + 71 per output + 101 per key + the bytes of the metadata. If the inputs exceed the outputs by the fee for that many bytes and the minimum for the change, and that many bytes are allowed, then making the payment (with the builder and one key, or with the functions of the tx package and any number of keys) gives no error, the ledger accepts the transaction, its outputs are those asked for and the change, and the fee is at most that for the bound.",
  "all payments with any number of inputs, outputs and keys, all metadata, networks and protocol parameters in the usual range, all ledger states, all hash functions",
  "The conditions are on what the user has before building, for any number of inputs and outputs; a test fixes the transaction.",
  "tx/tx_builder.go: AddInputs, AddOutputs, AddChangeIfNeeded, MinFee, Build", "tx/tx.go: Fee, SetFee, Bytes", "tx/tx_input_output.go: TxInput.MarshalCBOR, TxOutput", "fees/linear.go: NewLinearFee")
P("C137", "The order of inputs, outputs and keys does not matter",
  "If the inputs, the outputs and the keys are given to the builder in another order (as a service may list them), the calls succeed as before, with the same fee, the same change and the same number of bytes, and the ledger accepts the one transaction exactly if it accepts the other.",
  "all permutations of all lists of inputs, outputs and keys, all metadata that is always encoded alike, all ledger states and parameters, all hash functions",
  "There are n! orders, and acceptance is a statement about all ledger states.",
  "tx/tx_builder.go: AddInputs, AddOutputs, Sign, AddChangeIfNeeded, MinFee, Build", "tx/tx.go: Bytes")
P("C138", "With several keys, an extra call of Build makes the fee sufficient",
  "For a session of 1 to 100 keys: NewTxBuilder, AddInputs, AddOutputs, SetTTL, the metadata, Build (the result is not used), AddChangeIfNeeded, Build and Bytes all succeed, and the ledger accepts the bytes, if the inputs are distinct, unspent and locked by the keys, exceed the outputs by the fee of a transaction of the largest size that these counts permit and the minimum of an output, and by 265536; the outputs are above the minimum, all receiving addresses are of the network, and the change is not just above 2^32. Without the first call the ledger rejects two or more keys (C82).",
  "all sessions of 1 to 100 keys with metadata that is always encoded alike, all ledger states and parameters as mainnet's (fixed fee of 65536 or more), all hash functions",
  "The fee depends on which calls came before: MinFee counts the witnesses of the last Build. Acceptance is a statement about all ledger states.",
  "tx/tx_builder.go: Build, MinFee, AddChangeIfNeeded, Sign", "tx/tx.go: Bytes")
P("C139", "Transactions are in the deterministic form of CBOR",
  "Bytes returns the deterministic encoding (RFC 8949, 4.2.1: shortest heads, definite lengths, keys in order, as hardware wallets demand) of the transaction it describes: whoever reads the bytes, or any other encoding of the same data, and writes the data by these rules obtains the same bytes. Hash is the hash of the deterministic encoding of the body, so that a device given the fields computes the same id. With metadata this holds for values without maps of two or more entries, floats and types with their own encoding, whose structs have their fields in the order of the encoded keys.",
  "all transactions, also with Byron addresses, all lengths, all such metadata",
  "The rules concern every head of every list and number; tests compare a few transactions with recorded bytes.",
  "tx/tx.go: Bytes, Hash", "tx/tx_body.go: TxBody", "tx/tx_input_output.go: MarshalCBOR", "tx/tx_witness_set.go: Witness", "address/byron.go: MarshalCBOR")
P("C140", "A prepared transaction stays valid until the parameters rise",
  "A transaction made by the builder and accepted by the ledger is accepted under other protocol parameters of the same network, and in other slots, exactly if it has not expired, the new least fee for its size is not above its fee, the new minimum for outputs is not above any amount in it or the change, and the new size limit is not below its size. There is no reserve: with one key and change to a base address any increase of a fee parameter makes it invalid.",
  "all sessions with the builder whose inputs cover outputs and fee, ledger states, old and new parameters, slots",
  "A test has one set of parameters.",
  "tx/tx_builder.go: MinFee, AddChangeIfNeeded, Build", "protocol/protocol.go: Protocol", "tx/tx.go: Fee")
P("C141", "Size and fee can be computed beforehand",
  "The number of bytes of a transaction is a closed formula of the number of inputs, outputs and keys, their indices, address lengths and amounts, fee, time to live and length of the metadata. The fee that AddChangeIfNeeded sets is the linear fee of this formula for one key and change to a base address. One more input costs the price of 36 to 47 bytes, one more output that of its own bytes (and of the bytes by which the count and the change get wider or narrower), and with several keys the price of the further witnesses is lacking, to the byte.",
  "all sessions with the builder, any number of inputs, outputs and keys up to the size limit, all amounts that fit",
  "The lengths of numbers change at 24, 256, 65536 and 2^32, in every field independently; tests fix a few transactions.",
  "tx/tx_builder.go: MinFee, AddChangeIfNeeded, Build", "tx/tx.go: Bytes, Fee", "tx/tx_body.go: TxBody", "tx/tx_input_output.go: MarshalCBOR")
P("C142", "Transactions survive rollbacks of the chain",
  "The node can switch to another fork, by which transactions that were accepted disappear again. If a user makes any number of transactions that have an input in common (a payment tried again with another fee or time to live), then, however the chain is extended and rolled back, at most one of them is on it at any moment, and once. Bytes that were accepted once can be submitted again after a rollback: they are accepted exactly if they have not expired and their inputs are unspent. A transaction that spends an output of one that was rolled back is not accepted before that one is there again.",
  "all transactions of the package, all sequences of extensions and rollbacks of any length, all ledger states",
  "Quantifies over all histories with forks; a test chain has none.",
  "tx/tx_builder.go: AddInputs, Build", "tx/tx.go: Bytes", "node/blockfrost.go: SubmitTx")
P("C143", "A wallet can be emptied",
  "To send away everything, a user adds inputs but no outputs and gives the destination to AddChangeIfNeeded. If the inputs pay the fee and the minimum of an output, and are not too many for one transaction (424 on the main network), the ledger accepts and the destination receives everything but the fee. Any number of outputs can be sent in batches built beforehand and submitted in any order: afterwards none is left, the destination has one output for each batch, nothing else has changed, and what was received and the fees add up to what was there.",
  "all numbers of outputs, divisions into batches, amounts, ledger states, protocol parameters of the order of magnitude of those in use, orders of submission",
  "Quantifies over the number of inputs, the batches and the order in which they arrive.",
  "tx/tx_builder.go: AddInputs, AddChangeIfNeeded, MinFee, Build", "tx/tx.go: Bytes")
P("C144", "Witnesses can be made separately and collected",
  "Several holders of keys each make their own copy of a transaction: same inputs, outputs, fee, time to live and metadata, whatever witnesses the copy has and whenever Hash was called on it. Hash is the same for all. Each signs its own copy and hands over only its witnesses. Any collection of these, in any order, is read back exactly by the ledger, and every witness is valid. All of them together are as good as one caller with all the keys: the same bytes in the order of the keys, else the same size and accepted exactly when that one is. If a key that an input needs is missing, the transaction is not accepted. A witness made with a usable key for another transaction makes the ledger reject the whole collection, unless both ids lead to the same challenge.",
  "all transactions with encodable outputs and metadata always encoded alike, all numbers of parties and keys, collections, ledger states, hash functions",
  "Quantifies over the parties, their copies and what is collected in what order.",
  "tx/tx.go: Hash, Bytes, CalculateAuxiliaryDataHash", "tx/tx_witness_set.go: NewTXWitness, NewVKeyWitness", "bip32/bip32.go: Sign")
P("C145", "The minimum amounts of later eras",
  "The package knows the minimum amount of Shelley (minUTxOValue); later ledgers compute it from the size of an output. The package writes an output in exactly the bytes that the later rule counts. Whatever the ledger of Shelley accepts is accepted under the rules of Alonzo and Babbage if 29 words and 231 bytes cost no more than minUTxOValue; so a payment with MinUTXOValue 1000000 as in C136 is accepted with the main network's parameters of each of these eras. But the builder does not enforce any minimum: whatever MinUTXOValue is, it builds transactions with an output or change below the price of its size, and those are not accepted.",
  "all byte strings, ledger states, sessions of the builder, prices of a word and a byte",
  "Quantifies over amounts, addresses and ledger states, and compares with rules that are not in the repository.",
  "tx/tx_builder.go: AddOutputs, AddChangeIfNeeded, Build", "tx/tx_input_output.go: TxOutput", "protocol/protocol.go: Protocol")
P("C146", "A transaction can be prepared without the keys",
  "A machine without private keys makes the builder calls with no keys: they succeed, and Hash gives the id that the same calls give with any keys. The holder of the keys signs only this id and hands over public keys and signatures. Put in as witnesses, they give exactly the bytes, and the fee, that a builder with the keys gives. Without them no ledger accepts the transaction.",
  "all sessions with encodable addresses and metadata always encoded alike, numbers of keys, hash functions",
  "Quantifies over sessions and keys and compares two ways of working.",
  "tx/tx_builder.go: NewTxBuilder, AddChangeIfNeeded, Build", "tx/tx.go: Hash, Bytes", "tx/tx_witness_set.go: NewTXWitness, NewVKeyWitness")
P("C147", "Memory accesses do not depend on secrets",
  "Making a public key, signing, deriving a child key and making a root key from entropy or from a seed access the same places of memory in the same order whatever the key, the seed, the entropy and the bytes of the message are: no table is looked up at a secret place, no step is left out because of a secret digit or carry. Only the length of the message and whether the index is hardened make a difference. These accesses compute exactly what the functions return and change nothing that was there before. Checking a signature is not of this kind, but works on public values only.",
  "all keys, seeds, entropies, passwords, messages, indices, contents of memory, places of the arrays in memory",
  "A statement about pairs of runs for all pairs of secrets; a test compares a few, and timing measurements are noisy.",
  "bip32/bip32.go: Sign, MakePublicKey, Derive, NewXPrv, FromBip39Entropy, add28mul8, add256bits", "crypto/edwards25519/edwards25519.go: GeScalarMultBase, selectPoint, ScMulAdd, ScReduce, FeCMove")
P("C148", "A mistyped Byron address is noticed",
  "If one character of the text of a Byron address is typed wrong, left out or typed too much, or two neighbours are exchanged, NewAddress returns an error; it does not panic and does not return another address. (This fails in part. For an address without attributes, written in 43 bytes and 59 characters: every wrong character among the last 46 and every exchange among the last 45 is reported. In the first 13 characters a wrong one can give an address of another kind or another Byron address; a character left out anywhere, or put in anywhere behind the first, makes NewAddress panic.)",
  "all root hashes, positions and characters",
  "One character of Base58 changes up to all bytes behind it; that none of the changes possible hits another reading of the bytes with a matching checksum is a statement about all root hashes.",
  "address/address.go: NewAddress, NewAddressFromBytes", "address/byron.go: UnmarshalCBOR, String")
P("C149", "Machines with 32-bit numbers build the same transactions or ones the ledger rejects",
  "On a machine where Go's uint has 32 bits (386, arm): if the inputs have less than 2^32 lovelace (4294 ada) more than the outputs, but enough for the fee and for 200000, then AddChangeIfNeeded, Sign, Build and Bytes give the bytes that they give on a 64-bit machine, even if the totals exceed 32 bits. In general inputs equal outputs and fee exactly if the change is neither negative nor 2^32 or more; otherwise no error is reported, but no ledger in which the inputs have the stated amounts accepts the transaction. Listing unspent outputs gives the list of a 64-bit machine or an error, never smaller amounts; by way of Blockfrost there is an error exactly if an amount is not a number from -2^31 to 2^31-1, by way of cardano-cli exactly if a 64-bit machine fails too or an amount is outside that range.",
  "all builders, addresses, keys, metadata of constant length, ledger states and answers of the service",
  "The tests run on one machine; the width of uint differs from machine to machine, and wrapped totals that cancel look like wrapped totals that do not.",
  "tx/tx_builder.go: AddChangeIfNeeded, MinFee, getTotalInputOutputs", "tx/tx.go: Fee, SetFee", "node/blockfrost.go: UTXOs", "node/cardano-cli.go: UTXOs")
P("C150", "Machines with 32-bit numbers read the same addresses, parameters and tips, or report an error",
  "On a machine where Go's uint has 32 bits, NewAddress, NewAddressFromHex and NewAddressFromBytes accept exactly what they accept on a 64-bit machine, and make the same address of it. LoadProtocol, and ProtocolParameters and QueryTip by way of cardano-cli, give exactly the same result unless a number for one of the fields has more than 32 bits; then, and only then, they report an error that a 64-bit machine does not. ProtocolParameters by way of Blockfrost gives the same result or an error, the error exactly if the least output value is not written as a number from -2^31 to 2^31-1. No number is ever cut off.",
  "all texts, byte strings, files, answers of the programs and services",
  "The tests run on one machine; a conversion that cuts off numbers silently differs from one that reports them only on another.",
  "address/byron.go: UnmarshalCBOR", "address/address.go: NewAddress, NewAddressFromHex, NewAddressFromBytes", "protocol/protocol.go: LoadProtocol", "node/cardano-cli.go: ProtocolParameters, QueryTip", "node/blockfrost.go: ProtocolParameters")
P("C151", "A failure while the fee is computed is not lost",
  "If an output has a stake address or the metadata is a value that cannot be encoded, Bytes, Hex, Hash, Fee and Build return an error. MinFee and AddChangeIfNeeded report nothing of it: the fee becomes 0 and the change everything that is left. A builder on which this has happened, even if encoding failed only at that moment, never becomes the source of an accepted transaction without further inputs: whatever is called on it afterwards, with other metadata or a second AddChangeIfNeeded, no ledger with a fixed fee accepts what it builds, since either no fee is paid or all funds are already given out.",
  "all builders, outputs, metadata that fail always or at one moment, later calls in any order, ledgers with a fixed fee",
  "A swallowed error shows in a test only if the test provokes it and then looks at every later use of the same builder.",
  "tx/tx_builder.go: MinFee, AddChangeIfNeeded, Build", "tx/tx.go: Bytes, Hex, Hash, Fee", "tx/tx_input_output.go: TxOutput", "address/reward.go: MarshalCBOR")
P("C152", "Trying again with the same builder cannot pay twice",
  "Whatever is called on a builder, and at whatever moments the bytes of a transaction are taken from it (of what Build returned just then or earlier, or of Tx), the ledger accepts at most one of all these transactions: once one is accepted, then, after whatever other transactions, none of the others is, be it older or newer, with other outputs, fee, metadata or time to live. The same holds on a chain that is rolled back: at most one of them is on it, at one place. So a user who does not know whether a submission succeeded may change the builder and submit again. (Ids of transactions are not used again.)",
  "all sequences of calls on a builder, all moments, all ledger states, histories and rollbacks",
  "It is about all pairs of moments in all histories of a builder, and all later histories of the ledger.",
  "tx/tx_builder.go: TxBuilder, Build, Tx, AddInputs", "tx/tx.go: Bytes, AddInputs")
P("C153", "Byron addresses put together by hand are never mistaken for others",
  "The fields of ByronAddress are exported and nothing checks them: a caller may write one with a root hash of any length or nil and any type number. Bytes and String of two such addresses differ whenever the addresses differ (a nil payload counts as an empty one). NewAddressFromBytes of the Bytes (and NewAddress of the String, unless it starts with addr or stake) returns the very address if the hash has 28 bytes and the type is 0, and an error in all other cases, a nil hash among them; never another address.",
  "all hashes of all lengths and nil, all payloads, network attributes and type numbers, both CBOR libraries",
  "Hashes and payloads have any length, and the claim is about all pairs of addresses.",
  "address/byron.go: ByronAddress, Bytes, String, MarshalCBOR, UnmarshalCBOR", "address/address.go: NewAddress, NewAddressFromBytes")
with open(OUT, "w") as f:
    for p in props:
        f.write(json.dumps(p) + "\n")
print(len(props))
