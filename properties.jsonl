{"id": "C01", "title": "Address bytes round-trip", "statement": "For every base, enterprise, reward and pointer address on MainNet or TestNet whose credentials are 28-byte key or script hashes, NewAddressFromBytes(a.Bytes()) succeeds and returns an address of the same type equal to a.", "quantifier": "all networks in {MainNet, TestNet}, all key/script kinds, all 28-byte hashes, all uint64 slot/tx/cert pointers", "why_tests_cant": "2^224-sized payload spaces and 2^192 pointer triples; a test samples a handful of vectors", "anchors": ["address/address.go:NewAddressFromBytes", "address/base.go:Bytes", "address/enterprise.go:Bytes", "address/reward.go:Bytes", "address/pointer.go:Bytes"]}
{"id": "C02", "title": "Address string round-trip", "statement": "For every well-formed base, enterprise, reward and pointer address a, NewAddress(a.String()) succeeds and returns an address equal to a.", "quantifier": "all well-formed Shelley-era addresses", "why_tests_cant": "the string form depends on a checksum over the whole payload, so every payload is a different code path through the checksum", "anchors": ["address/address.go:NewAddress", "internal/bech32/bech32.go:Encode", "internal/bech32/bech32.go:Decode", "address/pointer.go:String"]}
{"id": "C03", "title": "Address hex round-trip", "statement": "For every well-formed Shelley-era address a, NewAddressFromHex of the hex of a.Bytes() (upper or lower case digits) returns a; strings with an odd number of digits or a non-hex digit are rejected with an error.", "quantifier": "all well-formed addresses, all strings", "why_tests_cant": "unbounded inputs", "anchors": ["address/address.go:NewAddressFromHex"]}
{"id": "C04", "title": "Byron address round-trip", "statement": "For every Byron address with a 28-byte root hash, type tag 0, any derivation-path payload and any one-byte network attribute, NewAddressFromBytes(b.Bytes()) returns b, and NewAddress(b.String()) returns b.", "quantifier": "all root hashes, payload byte strings of any length, network attribute absent or any uint8", "why_tests_cant": "payload is of unbounded length, CBOR heads change width at 24, 256, 65536, 2^32", "anchors": ["address/byron.go:MarshalCBOR", "address/byron.go:UnmarshalCBOR", "address/byron.go:String"]}
{"id": "C05", "title": "Parsing is faithful (no silent rewriting)", "statement": "Whenever NewAddressFromBytes(data) succeeds with a Shelley-era address, that address serialises back to exactly data.", "quantifier": "all byte strings of all lengths, any spare capacity behind the slice", "why_tests_cant": "the exceptional inputs (network nibble >= 2, trailing bytes, padded or overflowing variable-length naturals, short slices with spare capacity) are precisely those nobody writes a vector for", "anchors": ["address/address.go:NewAddressFromBytes", "address/pointer.go:VariableNatDecode"]}
{"id": "C06", "title": "Parsing is total", "statement": "NewAddressFromBytes, NewAddressFromHex and NewAddress return either an address or an error for every input; they never panic.", "quantifier": "all byte strings / all strings", "why_tests_cant": "requires covering every length and header nibble, and Go's capacity-bounded reslicing", "anchors": ["address/address.go:NewAddressFromBytes", "address/address.go:readAddrCred", "address/address.go:NewAddress"]}
{"id": "C07", "title": "Network is preserved", "statement": "A parsed address reports the network encoded in the low nibble of its header: 1 gives MainNet, 0 gives TestNet, and any other value is not silently reported as one of these. The human-readable prefix agrees with the reported network.", "quantifier": "all headers, all payloads", "why_tests_cant": "16 network nibbles times all address types times all payloads", "anchors": ["address/address.go:NewAddressFromBytes", "address/base.go:Prefix", "address/pointer.go:Prefix", "network/network.go"]}
{"id": "C08", "title": "Bech32 round-trip for every payload", "statement": "For every valid lower-case human-readable part and every byte string of any length, encoding succeeds and decoding the result returns the same human-readable part and the same bytes.", "quantifier": "all hrps of printable non-upper-case ASCII, all byte strings of all lengths", "why_tests_cant": "unbounded lengths; every length mod 5 exercises a different padding", "anchors": ["internal/bech32/bech32.go:Encode", "internal/bech32/bech32.go:Decode", "internal/bech32/bech32.go:convertBits", "internal/bech32/bech32.go:polymod"]}
{"id": "C09", "title": "Bech32 detects transcription errors", "statement": "Take any string accepted by the bech32 decoder. Changing any one character of its data part (checksum included) to another charset character makes it be rejected; so does any change confined to six consecutive data characters; so does changing any two characters less than 1023 positions apart, any three characters of a data part of at most 1023 characters, and any four characters of a data part of at most 89 characters (of at most 99 characters, the length class of base addresses, except in two arrangements of the four positions, for which undetected changes exist).", "quantifier": "all accepted strings of all lengths, all positions, all replacement characters", "why_tests_cant": "the number of corruptions of the number of valid strings cannot be enumerated; the guarantee is algebraic", "anchors": ["internal/bech32/bech32.go:polymod", "internal/bech32/bech32.go:Decode"]}
{"id": "C10", "title": "Bech32 decoding is canonical", "statement": "If a lower-case string s decodes to (hrp, data) then encoding (hrp, data) gives back exactly s: no two different lower-case strings denote the same address, and mixed-case strings are rejected.", "quantifier": "all strings", "why_tests_cant": "unbounded strings; padding bits and case are the classic sources of malleability", "anchors": ["internal/bech32/bech32.go:Decode", "internal/bech32/bech32.go:convertBits"]}
{"id": "C11", "title": "Bit regrouping preserves the bit string", "statement": "Re-grouping 8-bit bytes into 5-bit groups (as Encode does) concatenates exactly the bits of the input, most significant first, followed by fewer than five zero bits; the inverse direction accepts exactly the group sequences whose leftover bits number fewer than five and are all zero.", "quantifier": "all byte strings of all lengths, although the accumulator is a 32-bit register that overflows after four bytes", "why_tests_cant": "accumulator overflow and padding interact only on long inputs", "anchors": ["internal/bech32/bech32.go:convertBits"]}
{"id": "C12", "title": "Header nibble decides the address type", "statement": "A successful parse returns a base address exactly for header types 0-3, pointer for 4-5, enterprise for 6-7, Byron for 8, reward for 14-15, with key/script credential kinds read from header bits 4 and 5; types 9-13 are always rejected.", "quantifier": "all byte strings", "why_tests_cant": "every header byte combined with every payload", "anchors": ["address/address.go:NewAddressFromBytes", "address/address.go:readAddrCred"]}
{"id": "C13", "title": "Address conversions keep credentials", "statement": "ToEnterprise of a base address keeps its network and payment credential, ToReward keeps its network and stake credential, and the serialised payload bytes are bytes 1..28 respectively 29..56 of the base address.", "quantifier": "all base addresses", "why_tests_cant": "all payloads", "anchors": ["address/base.go:ToEnterprise", "address/base.go:ToReward"]}
{"id": "C14", "title": "Variable-length naturals round-trip", "statement": "VariableNatDecode(VariableNatEncode(n) ++ rest) = (n, len(VariableNatEncode(n)), nil) for every uint64 n and every suffix; the encoding is the minimal big-endian base-128 form with continuation bits.", "quantifier": "all 2^64 numbers, all suffixes", "why_tests_cant": "2^64 inputs with 10 width classes", "anchors": ["address/pointer.go:VariableNatEncode", "address/pointer.go:VariableNatDecode"]}
{"id": "C15", "title": "Variable-length naturals reject overflow", "statement": "VariableNatDecode never reports a value different from the number the consumed bytes denote (it must reject encodings of numbers >= 2^64).", "quantifier": "all byte strings", "why_tests_cant": "only encodings longer than nine bytes expose it", "anchors": ["address/pointer.go:VariableNatDecode"]}
{"id": "C16", "title": "Serialised form identifies the address", "statement": "Two well-formed addresses (of any Shelley type) with equal Bytes() are equal; two well-formed base/enterprise/reward addresses with equal String() are equal.", "quantifier": "all pairs of addresses", "why_tests_cant": "pairs of unbounded objects", "anchors": ["address/base.go", "address/enterprise.go", "address/reward.go", "address/pointer.go"]}
{"id": "C17", "title": "Transaction bytes are well-formed CBOR with the right content", "statement": "Whenever Tx.Bytes succeeds, an independent RFC 8949 reader accepts the whole output as a single 4-element array [body, witnesses, valid, metadata] where body is the map 0: inputs as [hash, index], 1: outputs as [address, amount], 2: fee, 3: ttl iff nonzero, 7: auxiliary data hash iff present, and witnesses is the map 0: list of [vkey, signature] or empty.", "quantifier": "all transactions: any number of inputs/outputs/witnesses, any amounts, any hashes", "why_tests_cant": "length-dependent CBOR heads; any number of elements", "anchors": ["tx/tx.go:Bytes", "tx/tx_body.go:TxBody", "tx/tx_input_output.go", "tx/tx_witness_set.go"]}
{"id": "C18", "title": "Transaction bytes determine the transaction", "statement": "Two transactions with Shelley-era outputs that serialise to the same bytes have the same inputs (hash and index), the same output address bytes and amounts, fee, ttl, auxiliary hash, witnesses and metadata encoding.", "quantifier": "all pairs of transactions", "why_tests_cant": "pairs of unbounded objects", "anchors": ["tx/tx.go:Bytes"]}
{"id": "C19", "title": "Fee follows the linear formula", "statement": "Tx.Fee returns TxFeeFixed + TxFeePerByte * len(serialised transaction) (in 64-bit arithmetic) exactly when the transaction serialises, and an error otherwise.", "quantifier": "all transactions, all fee parameters", "why_tests_cant": "all sizes", "anchors": ["tx/tx.go:Fee", "fees/linear.go"]}
{"id": "C20", "title": "The built transaction pays at least the linear fee", "statement": "After adding inputs and outputs, AddChangeIfNeeded(change) and Build(), the fee recorded in the transaction is at least TxFeeFixed + TxFeePerByte * len(tx.Bytes()).", "quantifier": "all inputs/outputs/parameters, any number of signing keys, any change address", "why_tests_cant": "depends on width changes of CBOR integers and on the number of witnesses; boundary cases are rare", "anchors": ["tx/tx_builder.go:MinFee", "tx/tx_builder.go:AddChangeIfNeeded"]}
{"id": "C21", "title": "Value is conserved", "statement": "After AddChangeIfNeeded, the sum of input amounts equals the sum of output amounts plus the fee, as exact integers, whenever the inputs cover outputs plus fee; in 64-bit arithmetic it always does.", "quantifier": "all input and output lists", "why_tests_cant": "sums of arbitrarily many amounts", "anchors": ["tx/tx_builder.go:AddChangeIfNeeded", "tx/tx_builder.go:getTotalInputOutputs"]}
{"id": "C22", "title": "Change is never created out of nothing", "statement": "AddChangeIfNeeded never adds an output larger than the total input; with insufficient inputs it must not produce a change output.", "quantifier": "all input/output lists", "why_tests_cant": "the failing region (inputs < outputs + fee) is an unsigned underflow", "anchors": ["tx/tx_builder.go:AddChangeIfNeeded"]}
{"id": "C23", "title": "Fee estimation has no side effects", "statement": "Calling MinFee any number of times at any point leaves the builder's transaction unchanged.", "quantifier": "all builder histories", "why_tests_cant": "the effect is through an aliased pointer and only visible when the witness set is still empty", "anchors": ["tx/tx_builder.go:MinFee"]}
{"id": "C24", "title": "Build signs the right thing, once per key", "statement": "Build returns a transaction whose witness list has, for each signing key in order, exactly one entry (public key, signature) whose signature is that key's signature on the 32-byte hash of the body of the very transaction returned; witnesses present before are discarded.", "quantifier": "all builder histories, any number of keys", "why_tests_cant": "all histories", "anchors": ["tx/tx_builder.go:Build", "tx/tx_witness_set.go:NewTXWitness"]}
{"id": "C25", "title": "Build is idempotent", "statement": "With a deterministic metadata encoding, calling Build twice in a row returns the same transaction (same bytes, same hash), and Build does not change inputs, outputs, fee or ttl.", "quantifier": "all builder states", "why_tests_cant": "all histories", "anchors": ["tx/tx_builder.go:Build"]}
{"id": "C26", "title": "Transaction id is the hash of the serialised body", "statement": "Tx.Hash is the blake2b-256 of exactly the bytes that Tx.Bytes places as the first element of the transaction array, and does not depend on witnesses or validity flag.", "quantifier": "all transactions with a deterministic metadata encoding", "why_tests_cant": "all transactions", "anchors": ["tx/tx.go:Hash", "tx/tx.go:Bytes"]}
{"id": "C27", "title": "Auxiliary data hash matches the attached metadata", "statement": "In the bytes returned by Tx.Bytes, the auxiliary data hash in the body is the blake2b-256 of the metadata bytes in the fourth element, whatever order the encoder chooses for Go map entries on each call.", "quantifier": "all transactions, all metadata values, all map iteration orders on each of the encoder calls", "why_tests_cant": "Go's map iteration order is random per call: a schedule quantifier", "anchors": ["tx/tx.go:CalculateAuxiliaryDataHash", "tx/tx.go:Bytes"]}
{"id": "C28", "title": "A built transaction is immutable under later builder calls", "statement": "Operations on the builder after Build do not change the transaction value that Build returned.", "quantifier": "all histories after Build", "why_tests_cant": "pointer aliasing between the returned copy and the builder", "anchors": ["tx/tx_builder.go:Build", "tx/tx.go:Tx"]}
{"id": "C29", "title": "Builder state is the history of calls", "statement": "After any sequence of AddInputs, AddOutputs, SetTTL, Sign, MinFee, Build calls, the inputs are the concatenation of all added inputs in order, the outputs the concatenation of all added outputs in order, the ttl is the last one set, and the signers are the initial keys followed by those added, in order.", "quantifier": "all call sequences of any length", "why_tests_cant": "unbounded histories", "anchors": ["tx/tx_builder.go"]}
{"id": "C30", "title": "Output addresses are encoded as byte strings", "statement": "Every output is serialised as a two-element array whose first element is a CBOR byte string holding exactly address.Bytes(), for every supported address type.", "quantifier": "all addresses of all types", "why_tests_cant": "all payloads", "anchors": ["tx/tx_input_output.go:TxOutput", "address/reward.go:MarshalCBOR", "address/byron.go:MarshalCBOR"]}
{"id": "C31", "title": "Transaction inputs keep the given hash", "statement": "NewTxInput stores exactly the bytes denoted by the hex string; malformed hex is not silently accepted.", "quantifier": "all strings", "why_tests_cant": "all strings", "anchors": ["tx/tx_input_output.go:NewTxInput"]}
{"id": "C32", "title": "Root keys are properly clamped", "statement": "NewXPrv accepts exactly 32-byte seeds; NewXPrv and FromBip39Entropy return 96 bytes whose scalar half has the three lowest bits clear, bit 255 clear, bit 254 set and bit 253 clear, and whose other bits are the hash output unchanged.", "quantifier": "all seeds, all entropies and passwords", "why_tests_cant": "hash outputs cannot be steered by tests", "anchors": ["bip32/bip32.go:NewXPrv", "bip32/bip32.go:FromBip39Entropy", "bip32/bip32.go:NormalizeBytesForce3rd"]}
{"id": "C33", "title": "Child key arithmetic", "statement": "Derive(i) returns 96 bytes: scalar = parent scalar + 8 * (first 28 bytes of Z) mod 2^256, nonce half = parent nonce half + (last 32 bytes of Z) mod 2^256 (both little endian), chain code = last 32 bytes of the second MAC, with Z and the MAC computed over tag 0/1 + private key for hardened i >= 2^31 and tag 2/3 + public key otherwise, followed by the little-endian index.", "quantifier": "all parent keys, all 2^32 indices", "why_tests_cant": "carry propagation across 32 bytes", "anchors": ["bip32/bip32.go:Derive", "bip32/bip32.go:add28mul8", "bip32/bip32.go:add256bits"]}
{"id": "C34", "title": "Derived scalars stay valid along every path", "statement": "Starting from a clamped root key, after any derivation path of fewer than 2^26 steps the scalar is a multiple of 8 and below 2^255, so it is a legal input of base-point multiplication and no addition wrapped.", "quantifier": "all roots, all paths of length < 2^26, all MAC outputs", "why_tests_cant": "paths and hash outputs unbounded", "anchors": ["bip32/bip32.go:Derive", "crypto/edwards25519/edwards25519.go:GeScalarMultBase"]}
{"id": "C35", "title": "Soft derivation commutes with taking public keys", "statement": "For a non-hardened index the public key of the child is parentPublic + [8 * Z_left]B, where Z depends only on the parent's extended public key and the index; so a watch-only wallet can compute it.", "quantifier": "all keys, all indices < 2^31", "why_tests_cant": "needs the group law", "anchors": ["bip32/bip32.go:Derive", "bip32/bip32.go:Public"]}
{"id": "C36", "title": "Public keys are [k]B", "statement": "Public().PublicKey() is the 32-byte RFC 8032 encoding of the curve point k*B where k is the little-endian scalar of the private key, for every scalar below 2^255.", "quantifier": "all scalars below 2^255", "why_tests_cant": "2^255 scalars; includes carry and table look-ups for every signed digit", "anchors": ["bip32/bip32.go:MakePublicKey", "crypto/edwards25519/edwards25519.go:GeScalarMultBase", "crypto/edwards25519/const.go:base"]}
{"id": "C37", "title": "Signatures verify", "statement": "For every extended private key with scalar below 2^255 and every message, the 64-byte signature (R, S) returned by Sign satisfies S < l and S*B = R + SHA512(R || A || M)*A with A the public key: it is accepted by any RFC 8032 verifier.", "quantifier": "all keys, all messages", "why_tests_cant": "needs the group law and exact modular arithmetic", "anchors": ["bip32/bip32.go:Sign", "crypto/edwards25519/edwards25519.go:ScMulAdd", "crypto/edwards25519/edwards25519.go:ScReduce"]}
{"id": "C38", "title": "Scalar reduction is exact", "statement": "ScReduce returns the little-endian encoding of the 512-bit input modulo l, fully reduced; ScMulAdd returns (a*b + c) mod l, fully reduced, for every 256-bit a, b, c; no intermediate 64-bit overflow occurs.", "quantifier": "all 64-byte / 32-byte inputs", "why_tests_cant": "2^512 and 2^768 inputs; carry chains", "anchors": ["crypto/edwards25519/edwards25519.go:ScReduce", "crypto/edwards25519/edwards25519.go:ScMulAdd"]}
{"id": "C39", "title": "Field arithmetic is exact", "statement": "On limb vectors within the documented bounds FeAdd, FeSub, FeNeg, FeMul, FeSquare, FeSquare2, FeInvert compute +, -, negation, product, square, twice the square and inverse in GF(2^255-19) without 32/64-bit overflow and their results are within the documented bounds again.", "quantifier": "all bounded limb vectors", "why_tests_cant": "10 limbs of 26 bits", "anchors": ["crypto/edwards25519/edwards25519.go:FeMul", "crypto/edwards25519/edwards25519.go:FeSquare", "crypto/edwards25519/edwards25519.go:FeCombine", "crypto/edwards25519/edwards25519.go:FeInvert"]}
{"id": "C40", "title": "Field serialisation is canonical", "statement": "FeToBytes writes the unique representative in [0, 2^255-19) little-endian; FeFromBytes reads any 255-bit little-endian number (ignoring the top bit) to the field element it denotes.", "quantifier": "all bounded limb vectors, all 32-byte strings", "why_tests_cant": "boundary values around p are exponentially rare", "anchors": ["crypto/edwards25519/edwards25519.go:FeToBytes", "crypto/edwards25519/edwards25519.go:FeFromBytes"]}
{"id": "C41", "title": "Point addition and doubling implement the curve group", "statement": "geAdd, geSub, geMixedAdd, geMixedSub and Double compute the sum, difference and double of the represented points of -x^2+y^2=1+dx^2y^2 for all inputs, including equal, opposite and neutral points.", "quantifier": "all representations of all pairs of curve points", "why_tests_cant": "special cases (doubling through addition, neutral element) are not reachable by random tests", "anchors": ["crypto/edwards25519/edwards25519.go:geAdd", "crypto/edwards25519/edwards25519.go:geMixedAdd", "crypto/edwards25519/edwards25519.go:Double"]}
{"id": "C42", "title": "Precomputed tables are correct", "statement": "Entry (i, j) of the base table is (j+1)*256^i*B and entry j of the odd-multiples table is (2j+1)*B, B being the RFC 8032 base point, which has order l.", "quantifier": "all 256 + 8 entries (finite, checked in the kernel)", "why_tests_cant": "a wrong entry is used only by scalars with one particular digit in one particular position", "anchors": ["crypto/edwards25519/const.go:base", "crypto/edwards25519/const.go:bi"]}
{"id": "C43", "title": "Fixed-size hash constructors", "statement": "Each of the ten XxxFromBytes constructors succeeds exactly when the input has the documented length and then holds exactly the input bytes. Blake2b224 and Blake2b256 return exactly the digest of the library, which the constructors accept.", "quantifier": "all byte strings", "why_tests_cant": "all lengths and contents", "anchors": ["crypto/crypto.go"]}
{"id": "C44", "title": "A node client talks to the network it was created for", "statement": "A client created for MainNet queries and submits to main net, and one created for TestNet to the test net, for both back ends.", "quantifier": "all NetworkInfo values", "why_tests_cant": "needs a live node", "anchors": ["node/cardano-cli.go:execCommand", "node/blockfrost.go:getNetwork", "node/blockfrost.go:NewBlockfrostClient"]}
{"id": "C45", "title": "CLI UTXO listing is parsed without panic", "statement": "For every well-formed UTXO table printed by the command line tool, the list of inputs returned is the list of rows with their hash, index and lovelace amount.", "quantifier": "all tables with any number of rows", "why_tests_cant": "needs a node; any number of rows", "anchors": ["node/cardano-cli.go:UTXOs"]}
{"id": "C46", "title": "Blockfrost UTXO conversion is faithful", "statement": "Each UTXO returned by the service becomes one input, in order, with the same transaction hash, the same output index and the lovelace quantity.", "quantifier": "all service answers with any number of UTXOs and assets", "why_tests_cant": "any number of entries; index and amount conversions are narrowing", "anchors": ["node/blockfrost.go:UTXOs"]}
{"id": "C47", "title": "Byron checksum detects corruption", "statement": "If the root payload of an accepted Byron address is changed within any window of 32 consecutive bits (checksum left alone), or in two bits less than 2^32 - 1 apart, an error is returned.", "quantifier": "all accepted addresses, all such corruptions", "why_tests_cant": "algebraic property of the CRC over unbounded payloads", "anchors": ["address/byron.go:UnmarshalCBOR"]}
{"id": "C48", "title": "Accepted Byron addresses are valid", "statement": "If NewAddressFromBytes accepts a Byron address then the stored checksum equals the CRC-32 of the tag-24 payload, the root hash has 28 bytes and the type is 0; reported network is MainNet exactly when the network attribute is absent.", "quantifier": "all byte strings", "why_tests_cant": "all byte strings", "anchors": ["address/byron.go:UnmarshalCBOR", "address/byron.go:NetworkInfo"]}
{"id": "C49", "title": "Parsed addresses do not alias the caller's buffer", "statement": "Changing the byte slice passed to NewAddressFromBytes after it returned does not change the parsed address.", "quantifier": "all inputs, all later writes", "why_tests_cant": "aliasing is invisible to value-based tests", "anchors": ["address/address.go:readAddrCred", "address/stake_credential.go"]}
{"id": "C50", "title": "Fixed header layout and length", "statement": "Base addresses always serialise to 57 bytes, enterprise and reward addresses to 29, with header = type nibble * 16 + network id, whatever the length of the credential payload slice; pointer addresses with a 28-byte credential to 1 + 28 + the three naturals.", "quantifier": "all addresses with key or script credentials and a network id below 16, also with payload slices of a wrong length", "why_tests_cant": "all payload lengths", "anchors": ["address/base.go:Bytes", "address/enterprise.go:Bytes", "address/reward.go:Bytes", "address/pointer.go:Bytes"]}
{"id": "C51", "title": "Point decompression", "statement": "FromBytes accepts a 32-byte string exactly when its y coordinate is on the curve, returns a point with that y and, unless x is zero, the requested sign, and ToBytes of any point is accepted and gives back that point.", "quantifier": "all 32-byte strings, all curve points", "why_tests_cant": "square roots of 2^255 values", "anchors": ["crypto/edwards25519/edwards25519.go:FromBytes", "crypto/edwards25519/edwards25519.go:ToBytes"]}
{"id": "C52", "title": "Double-scalar multiplication", "statement": "GeDoubleScalarMultVartime(a, A, b) computes a*A + b*B for all 256-bit scalars of value below 2^255 and all curve points A.", "quantifier": "all scalars, all points", "why_tests_cant": "sliding-window recoding has a carry chain", "anchors": ["crypto/edwards25519/edwards25519.go:GeDoubleScalarMultVartime", "crypto/edwards25519/edwards25519.go:slide"]}
{"id": "C53", "title": "Minimal-scalar test", "statement": "ScMinimal(s) is true exactly when the little-endian value of s is below the group order l.", "quantifier": "all 32-byte strings", "why_tests_cant": "2^256 inputs; equality boundary", "anchors": ["crypto/edwards25519/edwards25519.go:ScMinimal"]}
{"id": "C54", "title": "Fee estimation never returns less than the fixed fee", "statement": "MinFee returns at least TxFeeFixed for every builder state.", "quantifier": "all builder states", "why_tests_cant": "encoding errors are swallowed", "anchors": ["tx/tx_builder.go:MinFee"]}
{"id": "C55", "title": "Checksum is the BIP-173 code", "statement": "The checksum of the bech32 codec is the BCH code of BIP-173: the register computed over the expanded human-readable part and the data symbols is the remainder, over GF(32), of the polynomial with those coefficients modulo the published generator polynomial, and a string is accepted only if this remainder is 1. So strings are interchangeable with every conforming implementation.", "quantifier": "all symbol strings of all lengths", "why_tests_cant": "test vectors cover a handful of strings; a wrong generator bit may be exercised by none of them", "anchors": ["internal/bech32/bech32.go:polymod", "internal/bech32/bech32.go:generator", "internal/bech32/bech32.go:hrpExpand"]}
{"id": "C56", "title": "A mistyped address is rejected", "statement": "Take any string with an addr or stake prefix that NewAddress accepts. Change its data part within six consecutive characters, or in two characters less than 1023 apart, or in any three characters of a data part of at most 1023 characters, or in any four characters of an enterprise or stake address (in more than letter case, and not to the separator character). NewAddress returns an error for the result, so funds cannot be sent to a mistyped address.", "quantifier": "all accepted strings, all such changes", "why_tests_cant": "the number of mistyped strings is astronomically large", "anchors": ["address/address.go:NewAddress", "internal/bech32/bech32.go:Decode"]}
{"id": "C57", "title": "An accepted string is the address's own string", "statement": "If NewAddress accepts a bech32 string s and returns an address then String() of that address is s (up to letter case), so the prefix always matches the type and network of the address.", "quantifier": "all strings", "why_tests_cant": "the space of prefixes is unbounded", "anchors": ["address/address.go:NewAddress", "address/base.go:String", "address/reward.go:String"]}
{"id": "C58", "title": "Builders made from the same key slice are independent", "statement": "If several builders are created from one slice of keys, the keys each of them signs with are the initial keys followed by exactly the keys given to its own Sign calls, whatever the interleaving of Sign calls on the other builders.", "quantifier": "all key slices with any spare capacity, any number of builders, all interleavings of Sign calls", "why_tests_cant": "depends on the capacity of the caller's slice and on call interleaving", "anchors": ["tx/tx_builder.go:NewTxBuilder", "tx/tx_builder.go:Sign"]}
{"id": "C59", "title": "Signatures cover the submitted body", "statement": "In the bytes of a transaction returned by Build, the witnesses are signatures on the hash of exactly the body bytes contained in those bytes.", "quantifier": "all builder states, all metadata values and all map iteration orders of the encoder calls in Build and Bytes", "why_tests_cant": "Go's map iteration order is random per encoder call, and Bytes recomputes the auxiliary data hash after signing", "anchors": ["tx/tx_builder.go:Build", "tx/tx.go:Bytes", "tx/tx.go:CalculateAuxiliaryDataHash"]}
{"id": "C60", "title": "Every witness of a built transaction verifies", "statement": "When Build succeeds, the transaction carries exactly one witness per signing key, in order; each is an Ed25519 signature of the hash of the transaction's own body that verifies under the public key stored beside it, and that public key is the one of the signing key.", "quantifier": "all builder states, all lists of keys with scalars below 2^255", "why_tests_cant": "A test checks one transaction and one key; a slip in serialisation, hashing order, scalar arithmetic or point encoding for other values would make the network reject the transaction.", "anchors": ["tx/tx_builder.go:Build", "bip32/bip32.go:Sign", "bip32/bip32.go:MakePublicKey"]}
{"id": "C61", "title": "Different keys have different public keys", "statement": "Two private keys whose scalars are multiples of 8 below 2^255 (as all keys produced by the constructors and Derive are) have the same public key only if their scalars are equal.", "quantifier": "all pairs of such keys", "why_tests_cant": "Collisions are invisible to tests; depends on the order of the base point and the injectivity of the encoding.", "anchors": ["bip32/bip32.go:MakePublicKey", "bip32/bip32.go:Public"]}
{"id": "C62", "title": "Service parameters and tip are converted faithfully", "statement": "The protocol parameters and the chain tip returned by the Blockfrost client equal the numbers given by the service.", "quantifier": "all answers of the service", "why_tests_cant": "Conversions between signed, decimal and narrower unsigned numbers differ from the identity only outside the range of sampled answers.", "anchors": ["node/blockfrost.go:ProtocolParameters", "node/blockfrost.go:QueryTip"]}
{"id": "C63", "title": "Submission sends exactly the transaction", "statement": "SubmitTx hands the node exactly the bytes of Bytes() (in hexadecimal for the command line tool, as Hex() returns them), to the server of the client's network, and reports an error exactly when the service does not answer 200.", "quantifier": "all transactions, networks and answers", "why_tests_cant": "Needs a live node; any transaction.", "anchors": ["node/blockfrost.go:SubmitTx", "node/cardano-cli.go:SubmitTx", "tx/tx.go:Hex"]}
{"id": "C64", "title": "The witness for a key matches the addresses made from that key", "statement": "An address built with NewKeyStakeCredential(key.Public().PublicKey().Hash()) as payment credential names (CIP-19) the Blake2b-224 hash of exactly the public key that Build writes into the witness for that key; likewise reward addresses with it as stake credential.", "quantifier": "all keys, networks, stake credentials and builder states for which Build succeeds", "why_tests_cant": "Funds sent to an address become unspendable if address construction and witness construction disagree for some key; tests compare single keys.", "anchors": ["bip32/bip32.go:Hash", "address/stake_credential.go:NewKeyStakeCredential", "address/base.go:NewBaseAddress", "tx/tx_builder.go:Build"]}
{"id": "C65", "title": "Constructed addresses have the CIP-19 bytes and the CIP-5 prefixes, and networks report the right magic", "statement": "For both networks and any 28-byte key or script hashes, the bytes of the addresses made by NewBaseAddress, NewEnterpriseAddress, NewRewardAddress and NewPointerAddress are exactly the CIP-19 ones: header (type number times 16 plus 1 for the main and 0 for the test network), payment hash, then stake hash or the pointer as three minimal variable-length naturals. Their text (base, enterprise, reward) is the BIP-173 string of these bytes with prefix addr/stake on the main network and addr_test/stake_test on the test network. A parsed Shelley address with network nibble 1 reports protocol magic 764824073, with nibble 0 1097911063; Byron addresses report the former without and the latter with a network attribute.", "quantifier": "all hashes, all credential kinds, all pointers, both networks; all parsed byte strings", "why_tests_cant": "Round-trip tests hold for any consistent constants; a sample address checks one type and one network.", "anchors": ["address/base.go: NewBaseAddress, Bytes, String, Prefix", "address/enterprise.go: NewEnterpriseAddress", "address/reward.go: NewRewardAddress", "address/pointer.go: NewPointerAddress, Bytes", "address/stake_credential.go: NewKeyStakeCredential, NewScriptStakeCredential", "network/network.go: MainNet, TestNet"]}
{"id": "C66", "title": "The Byron checksum is the IEEE CRC-32 of the payload", "statement": "Every Byron address accepted by the parser is CBOR [#6.24(payload), c] where c denotes the CRC-32 of the payload in the sense of IEEE 802.3 (remainder of polynomial division over GF(2) with complemented first 32 bits and complemented result), and the bytes written for a Byron address are of that form.", "quantifier": "all byte strings; all Byron addresses with 28-byte root", "why_tests_cant": "A sample can only compare a few checksums; a wrong table entry shows up for some payloads only.", "anchors": ["address/byron.go: Bytes, MarshalCBOR, UnmarshalCBOR"]}
{"id": "C67", "title": "Bech32 encoding and decoding are exactly BIP-173", "statement": "For every legal lower-case human-readable part and all bytes, Encode returns a string if and only if it is the BIP-173 string: the part, the digit one, the characters of the 5-bit groups of the bytes padded with fewer than five zero bits, and the six characters that make the remainder over GF(32) modulo the generator polynomial equal to 1. A string without upper-case letters is decoded to a part and bytes if and only if the part is legal and it is the BIP-173 string for them; a string without lower-case letters likewise, in terms of its lower-case form.", "quantifier": "all human-readable parts, all byte strings, all strings in one case (for other than ASCII strings see C73)", "why_tests_cant": "Round trips hold for any permutation of the alphabet; test vectors cover a few strings.", "anchors": ["internal/bech32/bech32.go: Encode, Decode"]}
{"id": "C68", "title": "The text of a Byron address is its Base58 form", "statement": "String() of a Byron address is the Base58 text (Bitcoin alphabet) of its bytes: a 1 for each leading zero byte, then the base-58 digits without leading zeros of the number spelled by the other bytes. Conversely a string that does not start with addr or stake and is the Base58 text of some bytes is parsed as these bytes.", "quantifier": "all Byron addresses; all byte strings and their Base58 texts", "why_tests_cant": "Round trips hold for any alphabet; samples cover a few lengths.", "anchors": ["address/byron.go: String", "address/address.go: NewAddress"]}
{"id": "C69", "title": "Protocol parameters are loaded exactly as the file states them", "statement": "LoadProtocol returns the parameters p without an error if and only if the file can be read, its contents are one JSON text (RFC 8259, nested at most 10000 deep), and this text states p: it is null (all zero), or an object in which every member named txFeePerByte, txFeeFixed, maxTxSize or minUTxOValue (names compared ignoring case, after resolving escapes) is null or a natural number below 2^64, the last number being the parameter, and every member named protocolVersion is null or an object whose members major and minor are null or natural numbers below 256. Whitespace, order and other members do not matter. A parameter given as anything else (fraction, exponent, negative, too large, string) is an error, never truncated.", "quantifier": "all file contents, all protocol parameters", "why_tests_cant": "JSON texts are unbounded in size and nesting; a test file has one spelling, one order and no duplicates, escapes or out-of-range numbers.", "anchors": ["protocol/protocol.go: LoadProtocol, loadProtocolFromBytes, Protocol, ProtocolVersion"]}
{"id": "C70", "title": "A parameter missing from the file is not taken to be zero", "statement": "LoadProtocol returns without an error only if the file states every parameter; a parameter not stated is reported. (Proved: a parameter loaded as non-zero is stated under its name. False in the other direction: every JSON object without the names, and null, load as zero fees, sizes and version without an error.)", "quantifier": "all file contents", "why_tests_cant": "Tests use complete files; the effect of a missing or misspelt name is a zero fee that shows up only when a transaction is rejected.", "anchors": ["protocol/protocol.go: LoadProtocol, loadProtocolFromBytes", "fees/linear.go: NewLinearFee"]}
{"id": "C71", "title": "Queries through cardano-cli report failures and return what the tool printed", "statement": "ProtocolParameters and QueryTip of the command line client return a value without an error if and only if the command (query protocol-parameters, query tip) succeeds and prints a JSON text that states that value in the sense of C69 (for the tip: slot, epoch, block below 2^64). A failing command or any other output is reported as an error.", "quantifier": "all networks, all behaviours of the process", "why_tests_cant": "Tests do not run the tool; the error of the command is overwritten in the code before being checked.", "anchors": ["node/cardano-cli.go: ProtocolParameters, QueryTip, execCommand", "node/types.go: NetworkTip"]}
{"id": "C72", "title": "An address text with characters outside ASCII is rejected", "statement": "NewAddress, given any sequence of bytes that starts with addr or stake and contains a byte above 127 (look-alike letters, invisible characters, invalid UTF-8), returns an error. On every string it accepts, with the same result, exactly what the byte-wise description of C01-C10 and C67 accepts, although the code compares and converts letters by the Unicode case tables. Encoding is not affected by these tables either.", "quantifier": "all byte sequences; all Unicode case tables with the listed entries for ASCII, U+212A and U+0130", "why_tests_cant": "There are 2^21 code points and the case tables contain letters whose lower case is an ASCII letter; tests use ASCII strings.", "anchors": ["address/address.go: NewAddress", "internal/bech32/bech32.go: Decode, Encode"]}
{"id": "C73", "title": "The Bech32 decoder accepts only ASCII strings and does not panic", "statement": "bech32.Decode returns an error for every string that contains a character outside ASCII, and does not panic on any string. (Proved: the exact set of accepted strings, and no panic on ASCII. False: an upper-case string in which letters K of the data part are U+212A, KELVIN SIGN, is accepted with the same result; the decoder panics on CAMARYW1 followed by two such signs, since the length is checked in bytes and the symbols are counted in characters. NewAddress does not reach either, C72.)", "quantifier": "all byte sequences; all Unicode case tables with the listed entries", "why_tests_cant": "As for C72.", "anchors": ["internal/bech32/bech32.go: Decode"]}
{"id": "C74", "title": "Submitting through cardano-cli leaves nothing behind", "statement": "Whatever fails during SubmitTx of the command line client (encoding, creating, writing or closing the temporary file, the tool): afterwards the files are those that were there before, and no further file is held open. The tool is run at most once, only after the file has been written, and while it runs the file holds exactly the envelope with the transaction in hexadecimal. (False for open files: the file is not closed when writing or the tool fails. Also an error can be returned after the tool has succeeded, when closing fails.)", "quantifier": "all transactions, all behaviours of the operating system and of the tool, all states of the file system in which the temporary name is unused", "why_tests_cant": "Tests do not run the tool and cannot make individual file operations fail; a leaked descriptor shows only after many failures.", "anchors": ["node/cardano-cli.go: SubmitTx"]}
{"id": "C75", "title": "The command line client runs the program the user names", "statement": "NewCardanoCliNode uses the first path given, and cardano-cli if none is given or the path is empty. (False for the empty path: then the program to run has the empty name and every call fails.)", "quantifier": "all lists of paths", "why_tests_cant": "Tests do not construct the client with an empty path.", "anchors": ["node/cardano-cli.go: NewCardanoCliNode"]}
{"id": "C76", "title": "The address queried and the file submitted reach cardano-cli", "statement": "UTXOs passes the address to the tool as the value of the option --address, SubmitTx the file as the value of --tx-file, in one of the two ways in which option parsers accept them (two arguments, or one argument with =). (False for all networks, addresses and files: option and value are passed as one argument with a space in it.)", "quantifier": "all networks, addresses, transactions, file names", "why_tests_cant": "Tests do not run the tool.", "anchors": ["node/cardano-cli.go: UTXOs, SubmitTx, execCommand"]}
{"id": "C77", "title": "The ledger accepts what the builder builds", "statement": "Let a user with one key spend unspent outputs of that key to valid addresses of one network: NewTxBuilder, AddInputs, AddOutputs, SetTTL, metadata, AddChangeIfNeeded, Build. The calls succeed, and the ledger, which reads the bytes of the result by the CDDL and applies the UTXO and UTXOW rules with the parameters given to the builder, accepts it; it sees the inputs and outputs asked for and, as the last output, the change: total of the inputs minus outputs minus fee. (Proved if the total leaves at least the minimal output value for the change, the size is within the limit, the inputs are distinct, and the fee provisos of C20 hold. Without these it is false: C20, C78-C82.)", "quantifier": "all protocol parameters in the stated ranges, all keys, inputs, outputs, metadata with a fixed encoding, all ledger states that agree with the inputs, all slots before the TTL", "why_tests_cant": "Acceptance depends on every byte of the transaction, the signature, the hash of the metadata, and on the state of the ledger; tests compare two golden transactions, both of which no ledger accepts (C80).", "anchors": ["tx/tx_builder.go: NewTxBuilder, AddInputs, AddOutputs, SetTTL, AddChangeIfNeeded, MinFee, Build", "tx/tx.go: Tx, Bytes, Hash", "bip32/bip32.go: XPrv.Sign, XPrv.Public"]}
{"id": "C78", "title": "Wrong amounts lead to rejection, not to payment", "statement": "If the ledger accepts a transaction built with AddChangeIfNeeded, then the amounts of the inputs given to the builder were right in total, each input counted once, and cover outputs and fee: no part of an input becomes fee or is lost because an amount was stated wrongly. In particular a transaction with an input given twice, or with inputs that do not cover outputs and fee, is rejected, although the calls report no error.", "quantifier": "all sessions with totals below 2^64, all ledger states", "why_tests_cant": "Amounts are added modulo 2^64 and are not part of the signed transaction; tests state them correctly.", "anchors": ["tx/tx_builder.go: AddInputs, AddChangeIfNeeded, Build", "tx/tx_input_output.go: NewTxInput"]}
{"id": "C79", "title": "The builder reports outputs below the minimum", "statement": "AddChangeIfNeeded and Build do not return a transaction with an output, or a change output, below MinUTXOValue of the protocol parameters given to NewTxBuilder. (False: both are built without an error; proved that the ledger rejects every such transaction.)", "quantifier": "all sessions, all ledger states", "why_tests_cant": "The limit is in the parameters and is used nowhere in the builder; tests use large amounts.", "anchors": ["tx/tx_builder.go: AddChangeIfNeeded, Build", "protocol/protocol.go: Protocol"]}
{"id": "C80", "title": "The builder reports outputs of different networks", "statement": "Build does not return a transaction with outputs or change on different networks. (False, and the golden transactions of the repository are of this kind; proved that no ledger, main or test net, accepts such a transaction.)", "quantifier": "all sessions, all ledger states and networks", "why_tests_cant": "The tests fix this behaviour.", "anchors": ["tx/tx_builder.go: AddOutputs, AddChangeIfNeeded, Build"]}
{"id": "C81", "title": "The builder reports transactions that are too large", "statement": "Build does not return a transaction larger than MaxTxSize of the protocol parameters given to NewTxBuilder. (False: the limit is not looked at; proved that the ledger rejects these transactions.)", "quantifier": "all sessions, all ledger states", "why_tests_cant": "Tests use transactions with one input and two outputs.", "anchors": ["tx/tx_builder.go: Build", "protocol/protocol.go: Protocol"]}
{"id": "C82", "title": "Transactions signed by several keys are accepted", "statement": "As C77, with two or more keys. (False: whenever the fee is at most 200000, the inputs cover it and change goes to a base address, the fee is below the minimum and the ledger rejects.)", "quantifier": "all sessions with two or more keys, all ledger states", "why_tests_cant": "Tests sign with one key.", "anchors": ["tx/tx_builder.go: MinFee, AddChangeIfNeeded, Build, Sign"]}
{"id": "C83", "title": "Key functions leave their arguments alone and return independent keys", "statement": "NewXPrv, FromBip39Entropy, Derive, Public and Sign change no byte the caller can see, and the key returned by the first four shares no memory with any slice the caller had: later writes and appends through either are not seen through the other. This holds wherever the arguments lie in memory and whatever their capacity, and for whole derivation paths.", "quantifier": "all memories, all well-formed slices, all indices, all room left by the run-time", "why_tests_cant": "Aliasing shows only with particular capacities and later writes; tests compare returned values once.", "anchors": ["bip32/bip32.go: NewXPrv, FromBip39Entropy, Derive, Public, Sign"]}
{"id": "C84", "title": "The remaining key functions return independent values", "statement": "NormalizeBytesForce3rd does not change its argument, and appending to the value of PublicKey leaves the extended public key as it was. (False: the first overwrites its argument and returns it; appending up to 32 bytes to the public key overwrites the chain code.)", "quantifier": "all memories, all well-formed slices", "why_tests_cant": "Tests do not look at the arguments after the call and do not append.", "anchors": ["bip32/bip32.go: NormalizeBytesForce3rd, PublicKey, ChainCode"]}
{"id": "C85", "title": "Any metadata value is written faithfully", "statement": "Whatever Go value of booleans, integers of any size, floats, byte slices, strings, slices, maps, structs and tags (nested, nil or empty) is set as metadata: whenever Bytes succeeds, the output is one well-formed CBOR item whose fourth element represents that value: the same numbers (also negative ones), strings, lists in order, and for maps the same entries each exactly once, in some order. The hash in the body is the hash of an encoding of the value.", "quantifier": "all metadata values of the named kinds, all transactions, all iteration orders of maps", "why_tests_cant": "Nesting is unbounded and the order of map entries is random in every call; tests do not set metadata.", "anchors": ["tx/tx.go: Tx, Bytes, CalculateAuxiliaryDataHash"]}
{"id": "C86", "title": "The order in which maps in the metadata are written changes neither fee nor size", "statement": "Two runs of the same session (builder, change address, keys) with the same metadata value pay the same fee, give the same outputs including change, and return byte strings of the same length, though map entries may be written in different orders by every encoder call in each run.", "quantifier": "all metadata values, all builders, keys and addresses, all iteration orders in each of the encoder calls", "why_tests_cant": "MinFee encodes the metadata four times, Build and Bytes three more times, each time in a random order.", "anchors": ["tx/tx_builder.go: MinFee, AddChangeIfNeeded, Build", "tx/tx.go: Bytes, Fee, CalculateAuxiliaryDataHash"]}
{"id": "C87", "title": "The ledger accepts transactions with any metadata value", "statement": "A transaction with metadata is submitted with the body that was signed, and the body commits to the metadata that is submitted, so that the ledger accepts it if it accepts it without. (False for every value containing a map with two or more entries: there are iteration orders with which the ledger rejects every transaction carrying it, and with which the submitted body is not the signed one. True for values whose maps have at most one entry. Acceptance needs the two encodings in Bytes to have the same hash, and the signed body is the submitted one exactly if the encodings in Build and Bytes have the same hash.)", "quantifier": "all metadata values, all transactions, all iteration orders, all ledger states", "why_tests_cant": "The outcome is random with every call, and for a map of two entries is right half of the time for each pair of calls.", "anchors": ["tx/tx.go: Bytes, Hash, CalculateAuxiliaryDataHash", "tx/tx_builder.go: Build"]}
{"id": "C88", "title": "A nil map as metadata means no metadata", "statement": "Setting the metadata to a nil map or slice gives a transaction like one without metadata. (False: an interface holding a nil map is not nil; the body gets the hash of the encoding of null, the fourth element is null, and no ledger state accepts the transaction. The same holds for all metadata that is not a slice or map.)", "quantifier": "all values that are not slices or maps, all transactions, all ledger states", "why_tests_cant": "Needs the ledger's reading of the result; tests do not set metadata.", "anchors": ["tx/tx.go: CalculateAuxiliaryDataHash, Bytes"]}
{"id": "C89", "title": "Byron addresses of all kinds are understood", "statement": "Every Byron address as CIP-19 and the Byron CDDL define it (address root, optional derivation path, optional protocol magic, type; payload with checksum) is parsed to an address with this root, path and type, whose Bytes are the same address. (True for public key addresses of the main net. False for all addresses carrying a protocol magic, that is those of every test net, and for script and redemption addresses: all of them are rejected. Conversely what Bytes writes for an address with a network attribute is no Byron address.)", "quantifier": "all byte strings that are Byron addresses, both CBOR libraries", "why_tests_cant": "Tests parse a handful of main net addresses; the attribute type shows only with a protocol magic.", "anchors": ["address/byron.go: ByronAddress, decodeRaw, Bytes", "address/address.go: NewAddressFromBytes"]}
{"id": "C90", "title": "The example transfer works", "statement": "Run with a mnemonic the library accepts, against a service that reports parameters, unspent outputs and tip of the test network truthfully, with parameters like those in use and an unspent output of at least 6.2 ada, and with no receiver or the text of any base or enterprise address of the test network: the program posts exactly one transaction, and the ledger accepts it in every slot before its time to live. It spends one output of the wallet at m/1852'/1815'/0'/0/0, pays 5 ada to the receiver and the rest less a fee of at most 0.2 ada to the wallet. (False for amounts between 2^32 + 5 ada + fee and 2^32 + 5.2 ada lovelace: rejected by every ledger state.)", "quantifier": "all mnemonics and their entropies, all hash functions with the documented sizes, all services, ledger states, receivers and amounts", "why_tests_cant": "The program needs the live service; its failure shows only for amounts in a window of about 0.03 ada around 4300 ada.", "anchors": ["examples/transactions/txbuilder/main.go: main, createRootKey, generateBaseAddress", "tx/tx_builder.go: AddChangeIfNeeded, Build", "node/blockfrost.go: UTXOs, ProtocolParameters, SubmitTx"]}
{"id": "C91", "title": "The example transfer spends a sufficient output or reports that there is none", "statement": "The transfer spends the first output of at least 6.2 ada, and reports an error if the wallet has none. (False: it spends the last one; if there is none it builds, signs and posts a transaction spending the zero value of an input, which no ledger can read.)", "quantifier": "all lists of unspent outputs, all mnemonics, services and receivers", "why_tests_cant": "Depends on the wallet's outputs at the time.", "anchors": ["examples/transactions/txbuilder/main.go: main"]}
{"id": "C92", "title": "An invalid mnemonic is reported", "statement": "The example programs report a mnemonic that the library rejects. (True for restoring addresses. False for the transfer: it goes on with the empty entropy, so that all rejected mnemonics of 24 words give the same wallet, whose keys everybody can compute, and a transfer from it is accepted by the ledger. The check for 24 words accepts 23 spaces.)", "quantifier": "all mnemonics, all sets of mnemonics the library accepts, all services and ledger states", "why_tests_cant": "The examples are not tested; the wrong wallet is normally empty.", "anchors": ["examples/transactions/txbuilder/main.go: createRootKey, init", "examples/address/restore/main.go: main, init"]}
{"id": "C93", "title": "The example transfer expires 300 slots after the tip", "statement": "The posted transaction has time to live tip + 300. (Exact for all tips: tip + 300 modulo 2^32, no time to live if that is zero; so it is the stated one for tips below 2^32 - 300, and otherwise the ledger rejects it from a slot long past, or it never expires.)", "quantifier": "all slots of the tip, all mnemonics, services, receivers and amounts", "why_tests_cant": "Slots above 2^32 - 300 are in the future.", "anchors": ["examples/transactions/txbuilder/main.go: main", "tx/tx_builder.go: SetTTL"]}
{"id": "C94", "title": "The example programs print the right addresses", "statement": "Restoring prints, for a mnemonic the library accepts and both networks, the BIP-173 text of the CIP-19 base (type 1) or enterprise (type 0) address of the keys at the CIP-1852 paths; unknown networks are reported; generating prints such an address and a signature that verifies under the account key; decoding prints kind and text of every base and enterprise address of the test network. Types above 1 print nothing.", "quantifier": "all mnemonics and entropies, both networks, all flags, all hash functions with the documented sizes", "why_tests_cant": "The examples are not tested; covers every entropy.", "anchors": ["examples/address/restore/main.go: main, generateBaseAddress, generateEnterprise", "examples/address/generate/main.go: main", "examples/address/simple_decode/main.go: main"]}
{"id": "C95", "title": "Native tokens are kept", "statement": "A transaction that spends an output holding native tokens carries them to the change. (False: the package knows only ada. The tokens are not lost: no state of a ledger with tokens accepts such a transaction. Without tokens, acceptance is that of C77.)", "quantifier": "all sessions with the builder, all inputs, all assets, all ledger states", "why_tests_cant": "Tests have no tokens and no ledger.", "anchors": ["tx/tx.go: TxOutput", "tx/tx_builder.go: AddChangeIfNeeded", "node/blockfrost.go: UTXOs"]}
{"id": "C96", "title": "The order of the calls on the builder does not matter", "statement": "Inputs, outputs, time to live, keys and metadata may be given to the builder in any order, and the ledger accepts the result under the same conditions. (True for everything before AddChangeIfNeeded, and for keys and MinFee also after it. False for what comes after: without AddChangeIfNeeded the fee is zero; inputs, outputs or a second AddChangeIfNeeded after it unbalance the transaction; a time to live or metadata after it are not paid for. The ledger rejects each of these; nothing is paid by mistake.)", "quantifier": "all sequences of calls before and after, all inputs, outputs, keys, metadata, parameters in the usual range, all ledger states", "why_tests_cant": "Unit tests call in one order and have no ledger; the claim is about all sequences.", "anchors": ["tx/tx_builder.go: AddInputs, AddOutputs, SetTTL, Sign, MinFee, AddChangeIfNeeded, Build"]}
{"id": "C97", "title": "Builders can share inputs and outputs", "statement": "TxInput and TxOutput objects may be given to several builders, and calls on the builders may be interleaved: MinFee, Build and Bytes of each builder return what they return for a builder alone, and no object of the caller is written to: what NewTxInput and NewTxOutput returned keeps the values it was made with. (True as long as the caller does not write to an object after giving it away. The builder keeps the pointer: writing to an output after Build changes the bytes of the built transaction, whose signatures are then for another body; writing another amount before Build, after AddChangeIfNeeded, unbalances the transaction and the ledger rejects it; writing the amount of an input then has no effect.)", "quantifier": "all programs: all sequences of calls on any number of builders, all sharing, all capacities the runtime may choose", "why_tests_cant": "Sharing shows only in programs with several builders, and depends on spare capacity behind slices (MinFee appends to the builder's own slice).", "anchors": ["tx/tx_builder.go: NewTxBuilder, AddInputs, AddOutputs, MinFee, AddChangeIfNeeded, Build", "tx/tx_input_output.go: NewTxInput, NewTxOutput", "tx/tx_body.go: TxBody"]}
{"id": "C98", "title": "Repeating Fee and SetFee reaches the exact fee", "statement": "For a transaction made by hand, calling Fee and SetFee five times sets exactly the linear fee of the transaction as it then is, whatever the fee was before, and changes nothing else but the auxiliary data hash; with a fixed part of at least 65536 and fees below 2^32 twice is enough. (Once is not: the fee is then off by the price of the bytes by which the fee field has grown, and a ledger with these parameters rejects the transaction if the fee was not set before.)", "quantifier": "all transactions that serialise, all fee parameters without overflow, all metadata that is always encoded to the same size, all previous fees", "why_tests_cant": "The fee is part of what is priced; whether the iteration settles, and how fast, is a claim about all sizes and parameters.", "anchors": ["tx/tx.go: Fee, SetFee", "fees/linear.go: LinearFee"]}
{"id": "C99", "title": "The bytes of the body are what the transaction id is the hash of", "statement": "After a successful Hash, TxBody.Bytes returns bytes whose Blake2b-256 hash is the result, and TxBody.Hex the same in hexadecimal; after a successful Tx.Bytes it returns the first element of the transaction, which is what the ledger hashes. (Not before: with metadata, and none of these functions called yet, TxBody.Bytes lacks the 35 bytes of the auxiliary data hash.)", "quantifier": "all transactions, all metadata, all hash functions", "why_tests_cant": "Tests compare a few literals; the dependence on earlier calls shows only with metadata.", "anchors": ["tx/tx_body.go: Bytes, Hex", "tx/tx.go: Hash, Bytes, CalculateAuxiliaryDataHash"]}
{"id": "C100", "title": "Transactions made and signed by hand are accepted by the ledger", "statement": "Without the builder: a transaction with placeholder witnesses for all keys, five times Fee and SetFee, the fee taken from the change, Hash, one witness for each key, Bytes. The ledger accepts it for any number of keys, if the inputs are unspent outputs of these keys, stated correctly, the receiving addresses are of the network, the size is allowed and there is enough to keep outputs and change above the minimum. Without witnesses no ledger state accepts; the program in the README is of that kind.", "quantifier": "all keys, inputs, outputs, change addresses, fee parameters, times to live, deterministic metadata and ledger states", "why_tests_cant": "Acceptance is a property of the ledger rules and all amounts; tests compare bytes with literals.", "anchors": ["tx/tx.go: NewTx, AddInputs, AddOutputs, SetFee, Fee, Hash, Bytes, Hex", "tx/tx_witness_set.go: NewTXWitness, NewVKeyWitness", "README.md"]}
{"id": "C101", "title": "A character left out or added in an address text is noticed", "statement": "If one character of the data part of the text of a base, enterprise or reward address is left out, NewAddress returns an error. So it does for every other number of missing or added characters in the text of an enterprise or reward address, as long as the first two data characters stay (and, if only the six characters of a checksum are left, it gives no address but may panic). (Not for base addresses: bytes after the 57th are ignored, and a Bech32 text that ends in p stays valid when q's are put before the p; the longer text is read as the same address. There are base addresses whose text is read as another address, of other keys, when a single character is typed twice.)", "quantifier": "all well-formed base, enterprise and reward addresses, all positions, all other changes made at the same time that do not add a 1", "why_tests_cant": "Bech32 itself does not promise to detect insertions and deletions; whether they are noticed depends on lengths and padding for all texts.", "anchors": ["address/address.go: NewAddress, NewAddressFromBytes", "internal/bech32/bech32.go: Decode, convertBits"]}
{"id": "C102", "title": "A wrong prefix is noticed", "statement": "If NewAddress accepts a text with one of the prefixes addr, addr_test, stake and stake_test, then it refuses, with an error, the same data part after another of these prefixes, and after a prefix with one character replaced, left out or added or two neighbours exchanged (if it still begins with addr or stake).", "quantifier": "all accepted texts, all slips", "why_tests_cant": "The prefix is not compared with the network and the type of the address (C57); only the checksum over all data protects it.", "anchors": ["address/address.go: NewAddress", "internal/bech32/bech32.go: hrpExpand, polymod, verifyChecksum"]}
{"id": "C103", "title": "Text that is neither a Bech32 nor a Byron address is rejected", "statement": "NewAddress returns an error for text that is neither Bech32 with a valid checksum nor the Base58 text of a Byron address. (False. Text that does not begin with addr or stake is decoded as Base58 and may denote any type of address, without a checksum: whatever begins with a single 1 and goes on with 78 or more Base58 characters is accepted as a test net base address. Text with a character outside the Base58 alphabet makes NewAddress panic. Address text in capitals, which BIP-173 allows, is never read correctly: NewAddress panics or, for main net base addresses whose text has no 0, returns a main net base address with other credentials, always a payment key hash beginning with a4e7f5.)", "quantifier": "all strings; all well-formed addresses in capitals", "why_tests_cant": "A claim about all strings; the wrong results for capitals depend on numbers with more than a hundred digits.", "anchors": ["address/address.go: NewAddress"]}
{"id": "C104", "title": "Results may overwrite arguments, and no call changes the tables", "statement": "In the functions of edwards25519 the result may be the same variable as an argument, in every combination the types allow; it gets the value of the operation on the old arguments, and no other variable changes (FeToBytes, FeIsNegative and FeIsNonZero normalise their argument in place). Whatever sequence of calls a program makes on its own variables, the constants and the tables of the package stay as they are, and multiplication by scalars and decoding stay correct; so the public keys and signatures a process computes are the same in whatever order and number they are requested, and the signatures are valid.", "quantifier": "all memories, all pointers, all sequences of calls of the exported functions on variables of the caller (scalars below 2^255), all lists of requests for keys and signatures", "why_tests_cant": "A corrupted table or an operation that reads a limb after overwriting it shows only for some combinations of pointers or only in later calls.", "anchors": ["crypto/edwards25519/edwards25519.go: FeAdd, FeSub, FeMul, FeInvert, FeToBytes, geAdd, geMixedAdd, selectPoint, GeScalarMultBase, GeDoubleScalarMultVartime, FromBytes", "crypto/edwards25519/const.go: base, bi", "bip32/bip32.go: MakePublicKey, Sign"]}
{"id": "C105", "title": "Payments to every kind of address can be submitted, or an error is reported", "statement": "Whatever calls are made on a builder, if one of them pays to an address, as output or as change, then Build reports an error or the bytes of the transaction have, as the CDDL demands, a byte string as address of every output. (False for Byron addresses: proved that nothing is reported, that the bytes never follow the CDDL, and that no ledger state accepts them; for reward addresses Build reports an error; for the other three kinds the outputs are as demanded.)", "quantifier": "all sequences of calls, all addresses, all ledger states", "why_tests_cant": "The tests pay to base addresses only; what is wrong is seen only by a reader of the CDDL.", "anchors": ["tx/tx_builder.go: AddOutputs, AddChangeIfNeeded, Build", "address/byron.go: MarshalCBOR", "address/reward.go: MarshalCBOR"]}
{"id": "C106", "title": "Credentials of a wrong length are reported", "statement": "A credential that is not 28 bytes long (such as a public key in place of its hash) is reported when the address is made, written or paid to. (False: the constructors and Bytes accept every length; base, enterprise and reward addresses cut it or fill it with zeros, pointer addresses write it as it is; different credentials give one address; such an address is never read back as it was; what is paid to it can be spent only with a key whose hash is the cut or filled credential.)", "quantifier": "all payloads of all lengths, all networks and kinds, all sequences of calls that spend such an output, all ledger states", "why_tests_cant": "Tests use hashes of the right length.", "anchors": ["address/stake_credential.go: NewKeyStakeCredential, NewScriptStakeCredential", "address/base.go: Bytes, NewBaseAddress", "address/enterprise.go: Bytes", "address/reward.go: Bytes", "address/pointer.go: Bytes"]}
{"id": "C107", "title": "Only outputs of the given keys are spent", "statement": "If the ledger accepts the transaction made by any sequence of calls on a builder, then every input added by these calls is an unspent output locked by the hash of the public key of one of the keys given to NewTxBuilder or Sign; with an input at an address of another key, a script, a Byron address or a reward address the transaction is rejected.", "quantifier": "all sequences of calls, all keys, all ledger states and parameters", "why_tests_cant": "Quantifies over call sequences, keys and ledger states; tests do not run a ledger.", "anchors": ["tx/tx_builder.go: NewTxBuilder, Sign, AddInputs, Build"]}
{"id": "C108", "title": "A user can go on spending change", "statement": "A user with one key keeps a list of unspent outputs: after a payment those spent are removed, and the change is added with the id returned by Hash, the position of the last output and its amount. If every payment is made from distinct outputs of the list, with change to an address of the key, and within the conditions of C77 on amounts, sizes and the fee, then through any number of payments, receipts and transactions of others the ledger accepts every payment, the list stays a list of unspent outputs of the key with their true amounts, the recipients hold what they were sent, and the total of the list is what was received less what was paid and the fees. (The id of each payment must be new to the user.)", "quantifier": "all sequences of payments, receipts and transactions of others, all ledger states, keys, parameters, slots", "why_tests_cant": "A claim about executions of any length in which later transactions spend outputs of earlier ones.", "anchors": ["tx/tx_builder.go: AddInputs, AddOutputs, AddChangeIfNeeded, Build", "tx/tx.go: Hash, Bytes", "tx/tx_input_output.go: NewTxInput"]}
{"id": "C109", "title": "A transaction takes effect once", "statement": "After the ledger has accepted a transaction made by any calls on a builder, and whatever transactions it accepts afterwards, it accepts neither the same bytes again nor any other transaction of the package that has one of the inputs; so a submission that was reported as failed may be repeated. (Ids of transactions are not used again.)", "quantifier": "all sequences of calls, all later histories of the ledger, all ledger states", "why_tests_cant": "Quantifies over all histories between two submissions.", "anchors": ["tx/tx_builder.go: AddInputs, Build", "tx/tx.go: Bytes", "node/blockfrost.go: SubmitTx"]}
{"id": "C110", "title": "What is paid to a wallet can be spent after restoring it from the entropy", "statement": "For every entropy, password and derivation path the key and the text of its base or enterprise address can be made. Whoever passes this text to NewAddress and pays to the result with this package, in whatever order of calls, makes, when the transaction is applied, an unspent output that the ledger lets the holder spend with the key derived again from the entropy, under the conditions of C77, giving as input the id of the transaction, the position of the output and its amount.", "quantifier": "all entropies, passwords, paths of fewer than 2^26 steps, both networks, all stake credentials of 28 bytes, all paying transactions, all ledger states; also with SHA-512, HMAC, PBKDF2 and Blake2b as defined by the standards", "why_tests_cant": "Goes through every package: key derivation, curve arithmetic, hashing, address text, encoding, fee, signature; a slip in any of them that shows only for some keys loses money.", "anchors": ["bip32/bip32.go: FromBip39Entropy, Derive, Public, Sign", "address/base.go: NewBaseAddress, String", "address/enterprise.go: NewEnterpriseAddress", "address/address.go: NewAddress", "tx/tx_builder.go: Build", "tx/tx_input_output.go: NewTxInput"]}
{"id": "C111", "title": "Keys and signatures can be computed by several goroutines at the same time", "statement": "Goroutines that call the functions of edwards25519 on variables of their own, MakePublicKey and Sign at the same time, with their single accesses to memory interleaved in any order, never race for the constants and tables of the package. Each gets the public keys, signatures and field and group elements that it would get alone; signatures are valid; the tables are unchanged at every moment; and each finishes after a number of its own steps that the others have no influence on.", "quantifier": "all numbers of goroutines, all lists of calls and requests, all interleavings, all moments", "why_tests_cant": "A race shows, if ever, under one interleaving of millions; the race detector sees only the interleavings that happen.", "anchors": ["crypto/edwards25519/edwards25519.go: all functions", "crypto/edwards25519/const.go", "bip32/bip32.go: MakePublicKey, Sign"]}
{"id": "C112", "title": "Nothing but an assignment to the address or to its hash bytes changes an address", "statement": "Whatever a program makes, converts, parses and prints with the address package, and whatever it assigns to the networks, credentials and addresses it has used, an address keeps its bytes, text and network unless the program assigns to a field of this address (also through the pointer that NetworkInfo() gives) or to a byte of its hashes. Constructors and conversions copy the network and the kinds of credentials at the moment of the call; the bytes of the hashes stay shared with the slice they were given, with the parsed buffer and between a base address and the addresses converted from it. The slice that Bytes() gives is new.", "quantifier": "all programs of any length, all numbers of objects, all ways in which pointers and slices overlap", "why_tests_cant": "Tests look at an address right after making it; sharing shows after later assignments to other objects.", "anchors": ["address/base.go: NewBaseAddress, ToEnterprise, ToReward, NetworkInfo, Bytes", "address/enterprise.go", "address/pointer.go", "address/reward.go", "address/address.go: NewAddressFromBytes, readAddrCred", "address/stake_credential.go", "network/network.go"]}
{"id": "C113", "title": "A payment to what NewAddress returns together with an error is never made", "statement": "If a caller ignores the error of NewAddress, NewAddressFromHex or NewAddressFromBytes and pays to the returned value, as an output or as change, then whatever other calls are made on the builder, an error is reported or the ledger rejects the transaction, so that nothing is lost.", "quantifier": "all texts, all sequences of builder calls, all keys, metadata and ledger states", "why_tests_cant": "The returned value is nil or a partly read Byron address, and the builder takes it without an error; only the rules of the ledger decide.", "anchors": ["address/address.go: NewAddress, NewAddressFromHex, NewAddressFromBytes", "tx/tx_builder.go: AddOutputs, AddChangeIfNeeded, Build", "tx/tx_input_output.go: NewTxOutput", "tx/tx.go: Bytes"]}
{"id": "C114", "title": "A watch-only wallet sees the addresses that can be spent from", "statement": "Whoever has only the extended public key that Public() gives for an account, and derives public keys by the rules of BIP32-Ed25519 for steps below 2^31, computes for every such path the address text that the package makes from the private key; derivation never fails and has one result; and what is paid to that text can be spent with the key restored from the entropy.", "quantifier": "all entropies and passwords, all account paths, all paths of soft steps, both networks, all stake credentials", "why_tests_cant": "It joins key derivation, public keys, credentials, address texts and spending; tests compare single vectors.", "anchors": ["bip32/bip32.go: Derive, Public, PublicKey, Hash", "address/base.go: NewBaseAddress", "address/enterprise.go: NewEnterpriseAddress", "address/address.go: NewAddress", "tx/tx_builder.go: Build"]}
{"id": "C115", "title": "Signatures of different messages do not share their point", "statement": "Two signatures made by Sign, of any messages with any keys, begin with the same point exactly if the SHA-512 values of secret half and message are congruent modulo the group order; and if that happened for two messages of one key with different hash values in the verification equation, the secret scalar could be computed from the two signatures.", "quantifier": "all keys with scalars as made by derivation, all pairs of messages", "why_tests_cant": "Nonce reuse cannot be observed on a sample of messages, and that it reveals the key is a statement about arithmetic modulo the group order.", "anchors": ["bip32/bip32.go: Sign", "crypto/edwards25519/edwards25519.go: GeScalarMultBase, ScReduce, ScMulAdd"]}
{"id": "C116", "title": "Goroutines with builders of their own can share inputs, outputs and keys", "statement": "Any number of goroutines make builders and call them at the same time, with inputs, outputs and slices of keys that they share; what a goroutine does next may depend on the answers it got. If no goroutine calls Sign on a builder made from a slice with spare capacity, there is no data race, shared objects stay as they are, every goroutine finishes, and all its results of MinFee, Build and Bytes are those it would get alone. (Without the condition it is false: two calls of Sign race, and a goroutine may build a transaction signed with the key of another in place of its own.)", "quantifier": "all numbers of goroutines, all programs of calls, all interleavings of single reads and writes of shared memory, all contents of the shared objects", "why_tests_cant": "The number of interleavings is unbounded; a race detector sees only the runs it is given.", "anchors": ["tx/tx_builder.go: NewTxBuilder, Sign, MinFee, AddChangeIfNeeded, Build", "tx/tx.go: Bytes, Hash, Fee", "tx/tx_input_output.go: TxInput, TxOutput"]}
{"id": "C117", "title": "The string returned by SubmitTx identifies the transaction", "statement": "What SubmitTx returns without an error is the id of the transaction: used with NewTxInput it refers to the outputs of the submitted transaction, so that they can be spent next.", "quantifier": "all transactions, all clients, all services and tools that accept the transaction and answer in their format", "why_tests_cant": "Needs a service; a mock answers what its author thinks the service answers.", "anchors": ["node/blockfrost.go:SubmitTx", "node/cardano-cli.go:SubmitTx", "node/node.go:Node", "tx/tx_input_output.go:NewTxInput"]}
{"id": "C118", "title": "UTXOs lists all unspent outputs of the address", "statement": "UTXOs of the Blockfrost client returns every unspent output of the address, however many there are.", "quantifier": "all addresses, any number of unspent outputs", "why_tests_cant": "The service answers in pages; a test with a few outputs sees one page only.", "anchors": ["node/blockfrost.go:UTXOs"]}
{"id": "C119", "title": "A Blockfrost client stays with one network", "statement": "Queries and submissions of a client go to the same server for the whole life of the client, whatever the program does with the NetworkInfo value it passed to the constructor.", "quantifier": "all clients, all later changes of the value", "why_tests_cant": "Depends on aliasing between the client and a value of the program.", "anchors": ["node/blockfrost.go:NewBlockfrostClient", "node/blockfrost.go:getNetwork", "node/blockfrost.go:SubmitTx", "network/network.go:TestNet"]}
{"id": "C120", "title": "Metadata that the chain does not allow is reported", "statement": "If the metadata of a transaction is not of the form that the ledger prescribes (a map from labels, which are natural numbers, to integers, byte strings and texts of at most 64 bytes, lists and maps of such), then Build or Bytes returns an error; if it is, the ledger does not reject the transaction because of it.", "quantifier": "all Go values made of nil, booleans, integers of any size, floats, byte slices, strings, slices, maps, structs and tags, at any depth; all transactions and sessions", "why_tests_cant": "values are trees of any depth and size; what the ledger allows is not written anywhere in the package", "anchors": ["tx/tx.go:Bytes", "tx/tx.go:CalculateAuxiliaryDataHash", "tx/tx_builder.go:Build"]}
{"id": "C121", "title": "What is saved as JSON is loaded unchanged", "statement": "Protocol parameters that a program writes to a file with json.Marshal or json.MarshalIndent are loaded by LoadProtocol as the same parameters, without an error. The same holds, with json.Unmarshal, for a tip and for a list of transaction inputs (as returned by UTXOs). (For transaction outputs it is false: json.Unmarshal refuses them, whatever the address.)", "quantifier": "all parameters, all tips, all lists of inputs with hashes of any length, any whitespace as indentation", "why_tests_cant": "Values of 64 bits and lists of any length; the field that embeds an interface, omitted zeros and base64 must all agree with the decoder.", "anchors": ["protocol/protocol.go: Protocol, LoadProtocol", "node/types.go: NetworkTip", "tx/tx_input_output.go: TxInput, TxOutput"]}
{"id": "C122", "title": "The node example prints what the service answered", "statement": "The program examples/node prints the protocol parameters, the tip, and the unspent outputs of the address with their transaction ids, each as a JSON text, and ends with an error at the first question that was not answered.", "quantifier": "all services, all texts of addresses, any number of unspent outputs", "why_tests_cant": "The program needs a service with a project id; nothing checks what it prints.", "anchors": ["examples/node/main.go: main, prettyPrint", "node/blockfrost.go: ProtocolParameters, QueryTip, UTXOs"]}
{"id": "C123", "title": "An accepted transaction does what was asked for, and nothing else", "statement": "Whatever is called on a transaction builder, in whatever order: if the ledger accepts the bytes of what Build then returns, the unspent outputs afterwards are those given to AddOutputs, with address and amount, and one for each AddChangeIfNeeded at the address given, numbered in the order of the calls under the id that Hash reports; of the others exactly those given to AddInputs are gone; and what is spent is what is paid plus the fee.", "quantifier": "all sequences of calls, all keys, addresses and amounts, all states and parameters of the ledger", "why_tests_cant": "The sequences of calls and the states of the ledger are unbounded, and the effect is that of bytes read by another program.", "anchors": ["tx/tx_builder.go: TxBuilder (all methods)", "tx/tx.go: Tx.Bytes, Tx.Hash"]}
{"id": "C124", "title": "A transaction expires at the slot that was set", "statement": "Whatever is called on a transaction builder: from the slot given in the last call of SetTTL on, the ledger does not accept the transaction, in any state; before that slot the time plays no part. If SetTTL is not called, or with 0 in the last call, the transaction never expires.", "quantifier": "all sequences of calls, all slots, all states and parameters of the ledger", "why_tests_cant": "All sequences of calls and all slots; the test suite sets no time to live at all.", "anchors": ["tx/tx_builder.go: SetTTL", "tx/tx_body.go: TxBody"]}
{"id": "C125", "title": "The fee is not more than needed", "statement": "With one key, the fee of a transaction built after AddChangeIfNeeded is not above the least fee that the ledger asks for a transaction of its size. (True for change to a base address and fees up to 200000; in general the excess is at most the price of the bytes by which the change address is shorter than a base address and of eight more. For change to an enterprise address it is the price of 28 bytes.)", "quantifier": "all inputs, outputs, metadata and change addresses; fee parameters of the order of those in use", "why_tests_cant": "The excess depends on sizes of addresses and of encoded amounts that interact; a test sees single amounts.", "anchors": ["tx/tx_builder.go: MinFee, AddChangeIfNeeded"]}
{"id": "C126", "title": "A transaction can be decoded from its bytes", "statement": "cbor.Unmarshal of the bytes that Bytes returns, into a Tx (declared or from NewTx), gives no error and a transaction with the same inputs, outputs, fee, time to live, auxiliary data hash, witnesses, flag and metadata: the package says its types are for serialization and deserialization. (False for every transaction with an input or an output: there is an error, inputs are left empty and addresses nil. The other parts are right.)", "quantifier": "all transactions, all limits of the decoder", "why_tests_cant": "All transactions; a test on a transaction without inputs and outputs would pass, and the test suite decodes none.", "anchors": ["tx/tx.go: Tx", "tx/tx_body.go: TxBody", "tx/tx_input_output.go: TxInput, TxOutput", "tx/tx_witness_set.go: Witness, VKeyWitness", "tx/README.md"]}
{"id": "C127", "title": "Lists taken from a transaction stay as they are", "statement": "A list of inputs or outputs that a user has read from Tx().Body, or has made from it with append, keeps its elements whatever is called on the builder afterwards. (False: MinFee, and so AddFee, AddChangeIfNeeded and Build, append a placeholder output in the spare capacity of the builder's array. A list read from the body is not changed; one that was extended with append loses what was appended, and a second transaction made with it pays the address written in the source of the package.)", "quantifier": "all reachable transactions, all sequences of calls, all capacities that append may choose", "why_tests_cant": "Whether append finds spare capacity depends on the number of outputs so far; tests with one output see no difference.", "anchors": ["tx/tx_builder.go: TxBuilder.MinFee, TxBuilder.AddChangeIfNeeded, TxBuilder.AddOutputs", "tx/tx.go: Tx.AddOutputs"]}
{"id": "C128", "title": "Different derivation paths give different keys and addresses", "statement": "From one root key, two different paths lead to different extended private keys, and two different indices after one path give different public keys and different address texts, on whatever networks and with whatever stake parts; unless one of the hash functions collides on inputs that occur on those paths, or, for paths of different lengths, one of them passes through the root key again.", "quantifier": "all root keys, all paths, all indices, all networks and stake parts", "why_tests_cant": "Pairs of paths; tests derive a few.", "anchors": ["bip32/bip32.go: XPrv.Derive, XPrv.Public, XPub.PublicKey, MakePublicKey, FromBip39Entropy", "address/base.go: NewBaseAddress", "address/enterprise.go: NewEnterpriseAddress"]}
{"id": "C129", "title": "Transactions with something missing are reported", "statement": "If a transaction has a nil body, witness set, list, input, output or witness, an input without hash, an output without address, or a witness without key or signature, then Bytes and Build return an error. (False: null is written in its place and signed, and no ledger state accepts the result. MinFee and AddChangeIfNeeded report nothing either: they panic, exactly if body or witness set is nil or there is a nil input or output.)", "quantifier": "all transactions with nil in any combination of places, all keys, metadata, protocol parameters and ledger states", "why_tests_cant": "The places are combined freely, and that no ledger state accepts the result is a statement about all states.", "anchors": ["tx/tx.go: Tx, Bytes, Hash, Fee, CalculateAuxiliaryDataHash", "tx/tx_builder.go: MinFee, AddChangeIfNeeded, Build, getTotalInputOutputs", "tx/tx_input_output.go: TxInput, TxOutput", "tx/tx_witness_set.go: Witness, VKeyWitness"]}
{"id": "C130", "title": "A transaction altered on its way is rejected", "statement": "Whoever sees a built transaction and puts one of its witnesses (key and signature) into any other bytes gets nothing accepted but a transaction with the same inputs, outputs, fee, time to live and metadata hash, with the same effect on the unspent outputs: in no state does the ledger accept it otherwise. Likewise, as long as others have no signatures of a key but those in transactions that the user has built, whatever spends an output of that key has the effect of one of these transactions. The only exceptions are different bodies for which the hashes in the signature equation are congruent modulo the group order; a signature is valid for another message exactly if they are.", "quantifier": "all builders, keys whose scalar is not a multiple of the group order (all derived keys), all other bytes, all ledger states and parameters, all hash functions", "why_tests_cant": "The attacker may choose any bytes at all, and the ledger may be in any state.", "anchors": ["bip32/bip32.go: XPrv.Sign, XPub.PublicKey", "tx/tx_builder.go: Build", "tx/tx.go: Bytes, Hash"]}
{"id": "C131", "title": "Transactions without common inputs can be submitted in any order", "statement": "Given any number of built transactions that the ledger would accept now, no two of them with a common input and none spending an output of another: in whatever order they reach the ledger, all are accepted, and the unspent outputs in the end are the same.", "quantifier": "all numbers of transactions, all builders, all orders, all ledger states and parameters, all hash functions without a collision among the bodies", "why_tests_cant": "The number of orders grows with the factorial of the number of transactions, and the ledger states are unbounded.", "anchors": ["tx/tx_builder.go: Build, AddInputs", "tx/tx.go: Bytes, Hash", "tx/tx_body.go: TxBody"]}
{"id": "C132", "title": "The public key of an account and one private key below it give everything", "statement": "Whoever has the extended public key of an account (as a wallet gives it to a server that watches) and the private key of one of its addresses can compute the private key of the account, all 96 bytes, and with it those of all its addresses, and spend what they hold. For hardened indices the computation leads elsewhere. Users of the package must treat a private key of an address as a key of the whole account once the extended public key is known.", "quantifier": "all entropy, passwords and account paths, all paths of soft indices below, all hash functions", "why_tests_cant": "The claim is about a computation that is not in the package, on keys of any derivation tree.", "anchors": ["bip32/bip32.go: XPrv.Derive, XPrv.Public, XPub.PublicKey, XPub.ChainCode"]}
{"id": "C133", "title": "A transaction is for one network only", "statement": "If a ledger accepts a built transaction, every address in it (change included) reports the network id of that ledger; so a transaction that pays anything and is accepted on one network is accepted on no network with another id, whatever is unspent there and whatever the parameters. Networks with the same id (the test networks) are told apart by nothing in the addresses: the protocol magic that NetworkInfo carries is in no Shelley address.", "quantifier": "all builders, all networks, all ledger states, parameters and slots, all hash functions", "why_tests_cant": "A test would have to try every state of the other network.", "anchors": ["address/address.go: Address.Bytes, Address.NetworkInfo", "network/network.go: NetworkInfo", "tx/tx_builder.go: Build"]}
{"id": "C134", "title": "A wallet with many keys goes on", "statement": "A wallet that has a key of its own for every output it holds, and makes its payments with the functions of the tx package itself (inputs, outputs, five passes of the fee, change, a witness for every key), can go on for any number of payments: signing never fails, the ledger never refuses, the recipients own what they were sent, and the wallet knows after every payment the unspent outputs, their amounts and their keys, the change being recorded under the hash of the transaction and the last index. The total held is what was received less what was paid and the fees.", "quantifier": "all sequences of payments, receipts and transactions of others, all sets of keys, all networks and protocol parameters, all ledger states, all hash functions", "why_tests_cant": "The property is about executions of any length with any number of keys, where each payment spends the change of others.", "anchors": ["tx/tx.go: NewTx, AddInputs, AddOutputs, Fee, SetFee, Hash, Bytes", "tx/tx_witness_set.go: NewTXWitness, NewVKeyWitness", "tx/tx_input_output.go: NewTxInput", "bip32/bip32.go: XPrv.Sign"]}
{"id": "C135", "title": "Strict verifiers accept the signatures", "statement": "A signature made with XPrv.Sign passes the checks of strict verifiers (as in libsodium, which the Cardano node uses) too: canonical encodings of both points and of the scalar, neither point of small order; with the single exception of messages whose nonce hash is a multiple of the order of the base point, for which the strict verifier refuses. Verifiers that multiply by the cofactor accept as well. A ledger that verifies strictly accepts a built transaction exactly if one that verifies as RFC 8032 says does, but for that exception.", "quantifier": "all usable keys, all messages, all built transactions, ledger states and parameters, all hash functions", "why_tests_cant": "Tests use one verifier on a few messages; the verifiers differ on a set of inputs that no test meets.", "anchors": ["bip32/bip32.go: XPrv.Sign, MakePublicKey", "crypto/edwards25519/edwards25519.go: GeScalarMultBase, ScMulAdd", "tx/tx_builder.go: Build, Sign"]}
{"id": "C136", "title": "With enough in hand a payment succeeds", "statement": "How many bytes a transaction has at most is known before it is built: 85 + 38 per input + 71 per output + 101 per key + the bytes of the metadata. If the inputs exceed the outputs by the fee for that many bytes and the minimum for the change, and that many bytes are allowed, then making the payment (with the builder and one key, or with the functions of the tx package and any number of keys) gives no error, the ledger accepts the transaction, its outputs are those asked for and the change, and the fee is at most that for the bound.", "quantifier": "all payments with any number of inputs, outputs and keys, all metadata, networks and protocol parameters in the usual range, all ledger states, all hash functions", "why_tests_cant": "The conditions are on what the user has before building, for any number of inputs and outputs; a test fixes the transaction.", "anchors": ["tx/tx_builder.go: AddInputs, AddOutputs, AddChangeIfNeeded, MinFee, Build", "tx/tx.go: Fee, SetFee, Bytes", "tx/tx_input_output.go: TxInput.MarshalCBOR, TxOutput", "fees/linear.go: NewLinearFee"]}
{"id": "C137", "title": "The order of inputs, outputs and keys does not matter", "statement": "If the inputs, the outputs and the keys are given to the builder in another order (as a service may list them), the calls succeed as before, with the same fee, the same change and the same number of bytes, and the ledger accepts the one transaction exactly if it accepts the other.", "quantifier": "all permutations of all lists of inputs, outputs and keys, all metadata that is always encoded alike, all ledger states and parameters, all hash functions", "why_tests_cant": "There are n! orders, and acceptance is a statement about all ledger states.", "anchors": ["tx/tx_builder.go: AddInputs, AddOutputs, Sign, AddChangeIfNeeded, MinFee, Build", "tx/tx.go: Bytes"]}
{"id": "C138", "title": "With several keys, an extra call of Build makes the fee sufficient", "statement": "For a session of 1 to 100 keys: NewTxBuilder, AddInputs, AddOutputs, SetTTL, the metadata, Build (the result is not used), AddChangeIfNeeded, Build and Bytes all succeed, and the ledger accepts the bytes, if the inputs are distinct, unspent and locked by the keys, exceed the outputs by the fee of a transaction of the largest size that these counts permit and the minimum of an output, and by 265536; the outputs are above the minimum, all receiving addresses are of the network, and the change is not just above 2^32. Without the first call the ledger rejects two or more keys (C82).", "quantifier": "all sessions of 1 to 100 keys with metadata that is always encoded alike, all ledger states and parameters as mainnet's (fixed fee of 65536 or more), all hash functions", "why_tests_cant": "The fee depends on which calls came before: MinFee counts the witnesses of the last Build. Acceptance is a statement about all ledger states.", "anchors": ["tx/tx_builder.go: Build, MinFee, AddChangeIfNeeded, Sign", "tx/tx.go: Bytes"]}
{"id": "C139", "title": "Transactions are in the deterministic form of CBOR", "statement": "Bytes returns the deterministic encoding (RFC 8949, 4.2.1: shortest heads, definite lengths, keys in order, as hardware wallets demand) of the transaction it describes: whoever reads the bytes, or any other encoding of the same data, and writes the data by these rules obtains the same bytes. Hash is the hash of the deterministic encoding of the body, so that a device given the fields computes the same id. With metadata this holds for values without maps of two or more entries, floats and types with their own encoding, whose structs have their fields in the order of the encoded keys.", "quantifier": "all transactions, also with Byron addresses, all lengths, all such metadata", "why_tests_cant": "The rules concern every head of every list and number; tests compare a few transactions with recorded bytes.", "anchors": ["tx/tx.go: Bytes, Hash", "tx/tx_body.go: TxBody", "tx/tx_input_output.go: MarshalCBOR", "tx/tx_witness_set.go: Witness", "address/byron.go: MarshalCBOR"]}
{"id": "C140", "title": "A prepared transaction stays valid until the parameters rise", "statement": "A transaction made by the builder and accepted by the ledger is accepted under other protocol parameters of the same network, and in other slots, exactly if it has not expired, the new least fee for its size is not above its fee, the new minimum for outputs is not above any amount in it or the change, and the new size limit is not below its size. There is no reserve: with one key and change to a base address any increase of a fee parameter makes it invalid.", "quantifier": "all sessions with the builder whose inputs cover outputs and fee, ledger states, old and new parameters, slots", "why_tests_cant": "A test has one set of parameters.", "anchors": ["tx/tx_builder.go: MinFee, AddChangeIfNeeded, Build", "protocol/protocol.go: Protocol", "tx/tx.go: Fee"]}
{"id": "C141", "title": "Size and fee can be computed beforehand", "statement": "The number of bytes of a transaction is a closed formula of the number of inputs, outputs and keys, their indices, address lengths and amounts, fee, time to live and length of the metadata. The fee that AddChangeIfNeeded sets is the linear fee of this formula for one key and change to a base address. One more input costs the price of 36 to 47 bytes, one more output that of its own bytes (and of the bytes by which the count and the change get wider or narrower), and with several keys the price of the further witnesses is lacking, to the byte.", "quantifier": "all sessions with the builder, any number of inputs, outputs and keys up to the size limit, all amounts that fit", "why_tests_cant": "The lengths of numbers change at 24, 256, 65536 and 2^32, in every field independently; tests fix a few transactions.", "anchors": ["tx/tx_builder.go: MinFee, AddChangeIfNeeded, Build", "tx/tx.go: Bytes, Fee", "tx/tx_body.go: TxBody", "tx/tx_input_output.go: MarshalCBOR"]}
{"id": "C142", "title": "Transactions survive rollbacks of the chain", "statement": "The node can switch to another fork, by which transactions that were accepted disappear again. If a user makes any number of transactions that have an input in common (a payment tried again with another fee or time to live), then, however the chain is extended and rolled back, at most one of them is on it at any moment, and once. Bytes that were accepted once can be submitted again after a rollback: they are accepted exactly if they have not expired and their inputs are unspent. A transaction that spends an output of one that was rolled back is not accepted before that one is there again.", "quantifier": "all transactions of the package, all sequences of extensions and rollbacks of any length, all ledger states", "why_tests_cant": "Quantifies over all histories with forks; a test chain has none.", "anchors": ["tx/tx_builder.go: AddInputs, Build", "tx/tx.go: Bytes", "node/blockfrost.go: SubmitTx"]}
{"id": "C143", "title": "A wallet can be emptied", "statement": "To send away everything, a user adds inputs but no outputs and gives the destination to AddChangeIfNeeded. If the inputs pay the fee and the minimum of an output, and are not too many for one transaction (424 on the main network), the ledger accepts and the destination receives everything but the fee. Any number of outputs can be sent in batches built beforehand and submitted in any order: afterwards none is left, the destination has one output for each batch, nothing else has changed, and what was received and the fees add up to what was there.", "quantifier": "all numbers of outputs, divisions into batches, amounts, ledger states, protocol parameters of the order of magnitude of those in use, orders of submission", "why_tests_cant": "Quantifies over the number of inputs, the batches and the order in which they arrive.", "anchors": ["tx/tx_builder.go: AddInputs, AddChangeIfNeeded, MinFee, Build", "tx/tx.go: Bytes"]}
{"id": "C144", "title": "Witnesses can be made separately and collected", "statement": "Several holders of keys each make their own copy of a transaction: same inputs, outputs, fee, time to live and metadata, whatever witnesses the copy has and whenever Hash was called on it. Hash is the same for all. Each signs its own copy and hands over only its witnesses. Any collection of these, in any order, is read back exactly by the ledger, and every witness is valid. All of them together are as good as one caller with all the keys: the same bytes in the order of the keys, else the same size and accepted exactly when that one is. If a key that an input needs is missing, the transaction is not accepted. A witness made with a usable key for another transaction makes the ledger reject the whole collection, unless both ids lead to the same challenge.", "quantifier": "all transactions with encodable outputs and metadata always encoded alike, all numbers of parties and keys, collections, ledger states, hash functions", "why_tests_cant": "Quantifies over the parties, their copies and what is collected in what order.", "anchors": ["tx/tx.go: Hash, Bytes, CalculateAuxiliaryDataHash", "tx/tx_witness_set.go: NewTXWitness, NewVKeyWitness", "bip32/bip32.go: Sign"]}
{"id": "C145", "title": "The minimum amounts of later eras", "statement": "The package knows the minimum amount of Shelley (minUTxOValue); later ledgers compute it from the size of an output. The package writes an output in exactly the bytes that the later rule counts. Whatever the ledger of Shelley accepts is accepted under the rules of Alonzo and Babbage if 29 words and 231 bytes cost no more than minUTxOValue; so a payment with MinUTXOValue 1000000 as in C136 is accepted with the main network's parameters of each of these eras. But the builder does not enforce any minimum: whatever MinUTXOValue is, it builds transactions with an output or change below the price of its size, and those are not accepted.", "quantifier": "all byte strings, ledger states, sessions of the builder, prices of a word and a byte", "why_tests_cant": "Quantifies over amounts, addresses and ledger states, and compares with rules that are not in the repository.", "anchors": ["tx/tx_builder.go: AddOutputs, AddChangeIfNeeded, Build", "tx/tx_input_output.go: TxOutput", "protocol/protocol.go: Protocol"]}
{"id": "C146", "title": "A transaction can be prepared without the keys", "statement": "A machine without private keys makes the builder calls with no keys: they succeed, and Hash gives the id that the same calls give with any keys. The holder of the keys signs only this id and hands over public keys and signatures. Put in as witnesses, they give exactly the bytes, and the fee, that a builder with the keys gives. Without them no ledger accepts the transaction.", "quantifier": "all sessions with encodable addresses and metadata always encoded alike, numbers of keys, hash functions", "why_tests_cant": "Quantifies over sessions and keys and compares two ways of working.", "anchors": ["tx/tx_builder.go: NewTxBuilder, AddChangeIfNeeded, Build", "tx/tx.go: Hash, Bytes", "tx/tx_witness_set.go: NewTXWitness, NewVKeyWitness"]}
{"id": "C147", "title": "Memory accesses do not depend on secrets", "statement": "Making a public key, signing, deriving a child key and making a root key from entropy or from a seed access the same places of memory in the same order whatever the key, the seed, the entropy and the bytes of the message are: no table is looked up at a secret place, no step is left out because of a secret digit or carry. Only the length of the message and whether the index is hardened make a difference. These accesses compute exactly what the functions return and change nothing that was there before. Checking a signature is not of this kind, but works on public values only.", "quantifier": "all keys, seeds, entropies, passwords, messages, indices, contents of memory, places of the arrays in memory", "why_tests_cant": "A statement about pairs of runs for all pairs of secrets; a test compares a few, and timing measurements are noisy.", "anchors": ["bip32/bip32.go: Sign, MakePublicKey, Derive, NewXPrv, FromBip39Entropy, add28mul8, add256bits", "crypto/edwards25519/edwards25519.go: GeScalarMultBase, selectPoint, ScMulAdd, ScReduce, FeCMove"]}
{"id": "C148", "title": "A mistyped Byron address is noticed", "statement": "If one character of the text of a Byron address is typed wrong, left out or typed too much, or two neighbours are exchanged, NewAddress returns an error; it does not panic and does not return another address. (This fails in part. For an address without attributes, written in 43 bytes and 59 characters: every wrong character among the last 46 and every exchange among the last 45 is reported. In the first 13 characters a wrong one can give an address of another kind or another Byron address; a character left out anywhere, or put in anywhere behind the first, makes NewAddress panic.)", "quantifier": "all root hashes, positions and characters", "why_tests_cant": "One character of Base58 changes up to all bytes behind it; that none of the changes possible hits another reading of the bytes with a matching checksum is a statement about all root hashes.", "anchors": ["address/address.go: NewAddress, NewAddressFromBytes", "address/byron.go: UnmarshalCBOR, String"]}
{"id": "C149", "title": "Machines with 32-bit numbers build the same transactions or ones the ledger rejects", "statement": "On a machine where Go's uint has 32 bits (386, arm): if the inputs have less than 2^32 lovelace (4294 ada) more than the outputs, but enough for the fee and for 200000, then AddChangeIfNeeded, Sign, Build and Bytes give the bytes that they give on a 64-bit machine, even if the totals exceed 32 bits. In general inputs equal outputs and fee exactly if the change is neither negative nor 2^32 or more; otherwise no error is reported, but no ledger in which the inputs have the stated amounts accepts the transaction. Listing unspent outputs gives the list of a 64-bit machine or an error, never smaller amounts; by way of Blockfrost there is an error exactly if an amount is not a number from -2^31 to 2^31-1, by way of cardano-cli exactly if a 64-bit machine fails too or an amount is outside that range.", "quantifier": "all builders, addresses, keys, metadata of constant length, ledger states and answers of the service", "why_tests_cant": "The tests run on one machine; the width of uint differs from machine to machine, and wrapped totals that cancel look like wrapped totals that do not.", "anchors": ["tx/tx_builder.go: AddChangeIfNeeded, MinFee, getTotalInputOutputs", "tx/tx.go: Fee, SetFee", "node/blockfrost.go: UTXOs", "node/cardano-cli.go: UTXOs"]}
{"id": "C150", "title": "Machines with 32-bit numbers read the same addresses, parameters and tips, or report an error", "statement": "On a machine where Go's uint has 32 bits, NewAddress, NewAddressFromHex and NewAddressFromBytes accept exactly what they accept on a 64-bit machine, and make the same address of it. LoadProtocol, and ProtocolParameters and QueryTip by way of cardano-cli, give exactly the same result unless a number for one of the fields has more than 32 bits; then, and only then, they report an error that a 64-bit machine does not. ProtocolParameters by way of Blockfrost gives the same result or an error, the error exactly if the least output value is not written as a number from -2^31 to 2^31-1. No number is ever cut off.", "quantifier": "all texts, byte strings, files, answers of the programs and services", "why_tests_cant": "The tests run on one machine; a conversion that cuts off numbers silently differs from one that reports them only on another.", "anchors": ["address/byron.go: UnmarshalCBOR", "address/address.go: NewAddress, NewAddressFromHex, NewAddressFromBytes", "protocol/protocol.go: LoadProtocol", "node/cardano-cli.go: ProtocolParameters, QueryTip", "node/blockfrost.go: ProtocolParameters"]}
{"id": "C151", "title": "A failure while the fee is computed is not lost", "statement": "If an output has a stake address or the metadata is a value that cannot be encoded, Bytes, Hex, Hash, Fee and Build return an error. MinFee and AddChangeIfNeeded report nothing of it: the fee becomes 0 and the change everything that is left. A builder on which this has happened, even if encoding failed only at that moment, never becomes the source of an accepted transaction without further inputs: whatever is called on it afterwards, with other metadata or a second AddChangeIfNeeded, no ledger with a fixed fee accepts what it builds, since either no fee is paid or all funds are already given out.", "quantifier": "all builders, outputs, metadata that fail always or at one moment, later calls in any order, ledgers with a fixed fee", "why_tests_cant": "A swallowed error shows in a test only if the test provokes it and then looks at every later use of the same builder.", "anchors": ["tx/tx_builder.go: MinFee, AddChangeIfNeeded, Build", "tx/tx.go: Bytes, Hex, Hash, Fee", "tx/tx_input_output.go: TxOutput", "address/reward.go: MarshalCBOR"]}
{"id": "C152", "title": "Trying again with the same builder cannot pay twice", "statement": "Whatever is called on a builder, and at whatever moments the bytes of a transaction are taken from it (of what Build returned just then or earlier, or of Tx), the ledger accepts at most one of all these transactions: once one is accepted, then, after whatever other transactions, none of the others is, be it older or newer, with other outputs, fee, metadata or time to live. The same holds on a chain that is rolled back: at most one of them is on it, at one place. So a user who does not know whether a submission succeeded may change the builder and submit again. (Ids of transactions are not used again.)", "quantifier": "all sequences of calls on a builder, all moments, all ledger states, histories and rollbacks", "why_tests_cant": "It is about all pairs of moments in all histories of a builder, and all later histories of the ledger.", "anchors": ["tx/tx_builder.go: TxBuilder, Build, Tx, AddInputs", "tx/tx.go: Bytes, AddInputs"]}
{"id": "C153", "title": "Byron addresses put together by hand are never mistaken for others", "statement": "The fields of ByronAddress are exported and nothing checks them: a caller may write one with a root hash of any length or nil and any type number. Bytes and String of two such addresses differ whenever the addresses differ (a nil payload counts as an empty one). NewAddressFromBytes of the Bytes (and NewAddress of the String, unless it starts with addr or stake) returns the very address if the hash has 28 bytes and the type is 0, and an error in all other cases, a nil hash among them; never another address.", "quantifier": "all hashes of all lengths and nil, all payloads, network attributes and type numbers, both CBOR libraries", "why_tests_cant": "Hashes and payloads have any length, and the claim is about all pairs of addresses.", "anchors": ["address/byron.go: ByronAddress, Bytes, String, MarshalCBOR, UnmarshalCBOR", "address/address.go: NewAddress, NewAddressFromBytes"]}
