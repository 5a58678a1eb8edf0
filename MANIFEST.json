{
 "claims": [
  {
   "property": "C01",
   "status": "proved",
   "theorems": [
    "Cardano.Props.C01_bytes_roundtrip"
   ],
   "note": ""
  },
  {
   "property": "C02",
   "status": "partial",
   "theorems": [
    "Cardano.Props.C02_string_roundtrip_partial",
    "Cardano.Props.C02_pointer_string_empty"
   ],
   "note": "proved for base, enterprise and reward addresses; false for pointer addresses (String is always empty), proved"
  },
  {
   "property": "C03",
   "status": "proved",
   "theorems": [
    "Cardano.Props.C03_hex_roundtrip",
    "Cardano.Props.C03_bad_hex_rejected"
   ],
   "note": ""
  },
  {
   "property": "C04",
   "status": "partial",
   "theorems": [
    "Cardano.Props.C04_byron_bytes_roundtrip",
    "Cardano.Props.C04_byron_string_roundtrip_partial",
    "Cardano.Props.C04_byron_string_roundtrip_general",
    "Cardano.Props.C04_byron_string_misread",
    "Cardano.Props.C04_limits_roundtrip",
    "Cardano.Props.C04_limits_refine",
    "Cardano.Props.C04_limits_shelley"
   ],
   "note": "bytes: all payloads; strings: addresses of up to 2039212 bytes, beyond that provided the base58 text does not start with addr/stake; with 2039213 bytes it always does, and the string is refused; the limits of the CBOR library change neither this nor any accepted address nor any panic"
  },
  {
   "property": "C05",
   "status": "partial",
   "theorems": [
    "Cardano.Props.C05_parse_faithful_partial",
    "Cardano.Props.C05_base_not_faithful",
    "Cardano.Props.C05_network_not_faithful",
    "Cardano.Props.C05_pointer_not_faithful"
   ],
   "note": "proved under provisos; the three ways in which the full claim is false are proved"
  },
  {
   "property": "C06",
   "status": "partial",
   "theorems": [
    "Cardano.Props.C06_panics_iff_partial",
    "Cardano.Props.C06_hex_panics_iff_partial",
    "Cardano.Props.C06_text_panics_iff_partial",
    "Cardano.Props.C06_parse_panics"
   ],
   "note": "exact characterisation of the panicking inputs; the full claim is false, proved"
  },
  {
   "property": "C07",
   "status": "partial",
   "theorems": [
    "Cardano.Props.C07_network_preserved_partial",
    "Cardano.Props.C07_unknown_network_reported_as_testnet_id"
   ],
   "note": "proved for network nibbles 0 and 1; false for the others, proved"
  },
  {
   "property": "C08",
   "status": "proved",
   "theorems": [
    "Cardano.Props.C08_bech32_roundtrip"
   ],
   "note": ""
  },
  {
   "property": "C09",
   "status": "proved",
   "theorems": [
    "Cardano.Props.C09_bech32_detects_burst",
    "Cardano.Props.C09_bech32_detects_two",
    "Cardano.Props.C09_bech32_detects_three",
    "Cardano.Props.C09_bech32_detects_four",
    "Cardano.Props.C09_bech32_detects_four_long",
    "Cardano.Props.C09_four_not_always_detected",
    "Cardano.Props.C09_four_other_arrangement"
   ],
   "note": "the last two theorems exhibit base addresses for the two exceptional arrangements; the single-character case is a burst of length one; letter case alone is not counted as a change"
  },
  {
   "property": "C10",
   "status": "proved",
   "theorems": [
    "Cardano.Props.C10_bech32_canonical",
    "Cardano.Props.C10_bech32_injective",
    "Cardano.Props.C10_bech32_mixed_case_rejected"
   ],
   "note": ""
  },
  {
   "property": "C11",
   "status": "proved",
   "theorems": [
    "Cardano.Props.C11_regroup_8_to_5",
    "Cardano.Props.C11_regroup_5_to_8"
   ],
   "note": ""
  },
  {
   "property": "C12",
   "status": "proved",
   "theorems": [
    "Cardano.Props.C12_header_decides_type"
   ],
   "note": ""
  },
  {
   "property": "C13",
   "status": "proved",
   "theorems": [
    "Cardano.Props.C13_conversions_keep_credentials"
   ],
   "note": ""
  },
  {
   "property": "C14",
   "status": "proved",
   "theorems": [
    "Cardano.Props.C14_varnat_roundtrip"
   ],
   "note": ""
  },
  {
   "property": "C15",
   "status": "partial",
   "theorems": [
    "Cardano.Props.C15_varnat_exact_partial",
    "Cardano.Props.C15_overflow_accepted"
   ],
   "note": "values are exact modulo 2^64; overflow is accepted silently, proved"
  },
  {
   "property": "C16",
   "status": "proved",
   "theorems": [
    "Cardano.Props.C16_bytes_injective",
    "Cardano.Props.C16_string_injective"
   ],
   "note": ""
  },
  {
   "property": "C17",
   "status": "proved",
   "theorems": [
    "Cardano.Props.C17_bytes_wellformed"
   ],
   "note": "metadata is an arbitrary encoder output; it is assumed to be well-formed CBOR itself"
  },
  {
   "property": "C18",
   "status": "proved",
   "theorems": [
    "Cardano.Props.C18_bytes_injective"
   ],
   "note": ""
  },
  {
   "property": "C19",
   "status": "proved",
   "theorems": [
    "Cardano.Props.C19_fee_linear",
    "Cardano.Props.C19_fee_exact"
   ],
   "note": ""
  },
  {
   "property": "C20",
   "status": "partial",
   "theorems": [
    "Cardano.Props.C20_fee_sufficient_partial",
    "Cardano.Props.C20_exact",
    "Cardano.Props.C20_multisig_underpays",
    "Cardano.Props.C20_width_underpays"
   ],
   "note": "proved for one key and a change address not longer than a base address, when the change amount is not wider than the placeholder; false otherwise: proved in general for two or more keys and by a concrete transaction for a wider change amount"
  },
  {
   "property": "C21",
   "status": "proved",
   "theorems": [
    "Cardano.Props.C21_conservation_mod64",
    "Cardano.Props.C21_value_conserved"
   ],
   "note": ""
  },
  {
   "property": "C22",
   "status": "partial",
   "theorems": [
    "Cardano.Props.C22_change_bounded_partial",
    "Cardano.Props.C22_change_from_nothing",
    "Cardano.Props.C22_zero_change_output"
   ],
   "note": "proved with sufficient inputs; false for every builder state with insufficient inputs, proved"
  },
  {
   "property": "C23",
   "status": "partial",
   "theorems": [
    "Cardano.Props.C23_minfee_pure_partial",
    "Cardano.Props.C23_minfee_adds_witness"
   ],
   "note": "false when the witness set is empty, proved; everything else is unchanged"
  },
  {
   "property": "C24",
   "status": "proved",
   "theorems": [
    "Cardano.Props.C24_build_signs_body",
    "Cardano.Props.C24_signed_hash_is_txid"
   ],
   "note": "hash, public key and signature functions are parameters here; C36, C37 are about those of the package"
  },
  {
   "property": "C25",
   "status": "proved",
   "theorems": [
    "Cardano.Props.C25_build_idempotent",
    "Cardano.Props.C25_build_keeps"
   ],
   "note": ""
  },
  {
   "property": "C26",
   "status": "proved",
   "theorems": [
    "Cardano.Props.C26_hash_is_hash_of_body",
    "Cardano.Props.C26_hash_ignores_witnesses"
   ],
   "note": ""
  },
  {
   "property": "C27",
   "status": "partial",
   "theorems": [
    "Cardano.Props.C27_aux_hash_partial",
    "Cardano.Props.C27_map_order_breaks_hash",
    "Cardano.Props.C27_stale_hash"
   ],
   "note": "proved when the encoder calls agree; false for map metadata, proved"
  },
  {
   "property": "C28",
   "status": "partial",
   "theorems": [
    "Cardano.Props.C28_built_tx_stable_partial",
    "Cardano.Props.C28_built_tx_changes",
    "Cardano.Props.C28_minfee_changes_built_tx"
   ],
   "note": "the body is shared: false for AddInputs, AddOutputs, SetTTL and (without keys) MinFee, proved"
  },
  {
   "property": "C29",
   "status": "proved",
   "theorems": [
    "Cardano.Props.C29_history",
    "Cardano.Props.C29_new"
   ],
   "note": ""
  },
  {
   "property": "C30",
   "status": "partial",
   "theorems": [
    "Cardano.Props.C30_output_address_partial",
    "Cardano.Props.C30_byron_not_bytestring",
    "Cardano.Props.C30_reward_never_serialises"
   ],
   "note": "proved for base, enterprise and pointer addresses; false for Byron and reward addresses, proved"
  },
  {
   "property": "C31",
   "status": "partial",
   "theorems": [
    "Cardano.Props.C31_hash_kept_partial",
    "Cardano.Props.C31_malformed_hex_accepted",
    "Cardano.Props.C31_odd_length_truncated",
    "Cardano.Props.C31_bad_id_rejected"
   ],
   "note": "malformed hex is accepted silently, proved; an id of another length makes the transaction unreadable for the ledger, proved"
  },
  {
   "property": "C32",
   "status": "proved",
   "theorems": [
    "Cardano.Props.C32_root_key",
    "Cardano.Props.C32_bip39_root_key"
   ],
   "note": "hash functions are parameters with the documented output sizes"
  },
  {
   "property": "C33",
   "status": "proved",
   "theorems": [
    "Cardano.Props.C33_derive"
   ],
   "note": "hash functions and public key function are parameters"
  },
  {
   "property": "C34",
   "status": "proved",
   "theorems": [
    "Cardano.Props.C34_path_scalars"
   ],
   "note": ""
  },
  {
   "property": "C35",
   "status": "proved",
   "theorems": [
    "Cardano.Props.C35_soft_derivation",
    "Cardano.Props.C35_soft_path"
   ],
   "note": "hash functions are parameters with the documented output sizes; scalars below 2^255 - 2^227, which C34 guarantees"
  },
  {
   "property": "C36",
   "status": "proved",
   "theorems": [
    "Cardano.Props.C36_public_key",
    "Cardano.Props.C36_range",
    "Cardano.Props.C36_chain_code"
   ],
   "note": "C36_range: for which of all 2^256 scalars it is true (a few beyond 2^255; false for the rest)"
  },
  {
   "property": "C37",
   "status": "proved",
   "theorems": [
    "Cardano.Props.C37_signature_valid",
    "Cardano.Props.C37_nonce"
   ],
   "note": "SHA-512 is a parameter"
  },
  {
   "property": "C38",
   "status": "proved",
   "theorems": [
    "Cardano.Props.C38_reduce",
    "Cardano.Props.C38_mulAdd"
   ],
   "note": "absence of 64-bit overflow is part of the proof: Verif/Ed25519/Machine.lean, bounds_sound"
  },
  {
   "property": "C39",
   "status": "proved",
   "theorems": [
    "Cardano.Props.C39_add",
    "Cardano.Props.C39_sub",
    "Cardano.Props.C39_neg",
    "Cardano.Props.C39_mul",
    "Cardano.Props.C39_square",
    "Cardano.Props.C39_square2",
    "Cardano.Props.C39_invert"
   ],
   "note": "bounds are those of the comments in the source; absence of 32- and 64-bit overflow is part of the proof"
  },
  {
   "property": "C40",
   "status": "proved",
   "theorems": [
    "Cardano.Props.C40_toBytes",
    "Cardano.Props.C40_fromBytes",
    "Cardano.Props.C40_canonical",
    "Cardano.Props.C40_roundtrip",
    "Cardano.Props.C40_predicates"
   ],
   "note": ""
  },
  {
   "property": "C41",
   "status": "proved",
   "theorems": [
    "Cardano.Props.C41_points",
    "Cardano.Props.C41_group_law",
    "Cardano.Props.C41_add_sub",
    "Cardano.Props.C41_mixed",
    "Cardano.Props.C41_double",
    "Cardano.Props.C41_convert"
   ],
   "note": "includes the proof that the curve points form a group"
  },
  {
   "property": "C42",
   "status": "proved",
   "theorems": [
    "Cardano.Props.C42_base_point",
    "Cardano.Props.C42_order",
    "Cardano.Props.C42_base",
    "Cardano.Props.C42_bi"
   ],
   "note": ""
  },
  {
   "property": "C43",
   "status": "proved",
   "theorems": [
    "Cardano.Props.C43_hash_constructors",
    "Cardano.Props.C43_hash_functions"
   ],
   "note": ""
  },
  {
   "property": "C44",
   "status": "partial",
   "theorems": [
    "Cardano.Props.C44_blockfrost_partial",
    "Cardano.Props.C44_cli_wrong_network",
    "Cardano.Props.C44_cli_argument"
   ],
   "note": "Holds for the Blockfrost client. False for the cardano-cli client, for every network and command (proved): network 0 runs with --mainnet, every other network passes option and magic as one argument."
  },
  {
   "property": "C45",
   "status": "partial",
   "theorems": [
    "Cardano.Props.C45_rows_partial",
    "Cardano.Props.C45_always_panics",
    "Cardano.Props.C45_never_an_input"
   ],
   "note": "The loop over rows is right on well-formed tables of any size, but the claim is false (proved): every output of at least four bytes panics, and no input is ever returned, since the number of bytes is used as the number of lines."
  },
  {
   "property": "C46",
   "status": "partial",
   "theorems": [
    "Cardano.Props.C46_utxos_partial",
    "Cardano.Props.C46_index_truncated",
    "Cardano.Props.C46_last_lovelace_wins",
    "Cardano.Props.C46_negative_accepted",
    "Cardano.Props.C46_quantity_exact"
   ],
   "note": "Proved for indices below 2^16, amounts below 2^63 and one lovelace entry per UTXO. Outside, indices are truncated, only the last lovelace entry counts and negative quantities become huge amounts (proved)."
  },
  {
   "property": "C47",
   "status": "proved",
   "theorems": [
    "Cardano.Props.C47_byron_burst_detected",
    "Cardano.Props.C47_byron_four_bytes_detected",
    "Cardano.Props.C47_byron_two_bits_detected",
    "Cardano.Props.C47_rejected"
   ],
   "note": "bit order is that of CRC-32 (least significant bit of each byte first)"
  },
  {
   "property": "C48",
   "status": "proved",
   "theorems": [
    "Cardano.Props.C48_accepted_byron_valid",
    "Cardano.Props.C48_inner_trailing"
   ],
   "note": "C48_inner_trailing: bytes behind the content inside the payload are ignored by the lenient CBOR library and an error for the strict one."
  },
  {
   "property": "C49",
   "status": "partial",
   "theorems": [
    "Cardano.Props.C49_no_alias_partial",
    "Cardano.Props.C49_parsed_address_aliases_buffer"
   ],
   "note": "Byron addresses and all scalar fields do not alias; credential payloads do, proved"
  },
  {
   "property": "C50",
   "status": "proved",
   "theorems": [
    "Cardano.Props.C50_layout"
   ],
   "note": ""
  },
  {
   "property": "C51",
   "status": "proved",
   "theorems": [
    "Cardano.Props.C51_encoding_unique",
    "Cardano.Props.C51_toBytes",
    "Cardano.Props.C51_accepts",
    "Cardano.Props.C51_result",
    "Cardano.Props.C51_roundtrip",
    "Cardano.Props.C51_accepts_nonencodings"
   ],
   "note": "the requested sign cannot be met for x = 0; strings that are no encodings are accepted (unlike RFC 8032), proved"
  },
  {
   "property": "C52",
   "status": "proved",
   "theorems": [
    "Cardano.Props.C52_double_scalar_mult"
   ],
   "note": ""
  },
  {
   "property": "C53",
   "status": "proved",
   "theorems": [
    "Cardano.Props.C53_minimal",
    "Cardano.Props.C53_reduced_passes"
   ],
   "note": ""
  },
  {
   "property": "C54",
   "status": "partial",
   "theorems": [
    "Cardano.Props.C54_minfee_ge_fixed_partial",
    "Cardano.Props.C54_minfee_zero"
   ],
   "note": "false with an output that does not serialise, proved"
  },
  {
   "property": "C55",
   "status": "proved",
   "theorems": [
    "Cardano.Props.C55_polymod_is_bch_remainder",
    "Cardano.Props.C55_checksum_iff_remainder_one"
   ],
   "note": ""
  },
  {
   "property": "C56",
   "status": "proved",
   "theorems": [
    "Cardano.Props.C56_mistyped_burst_rejected",
    "Cardano.Props.C56_mistyped_two_rejected",
    "Cardano.Props.C56_mistyped_three_rejected",
    "Cardano.Props.C56_mistyped_four_rejected",
    "Cardano.Props.C56_four_wrong_characters",
    "Cardano.Props.C56_three_wrong_characters",
    "Cardano.Props.C56_separator_typo_accepted"
   ],
   "note": "replacement by the separator 1 is excluded from the statement; the last theorem shows a base address text where it goes undetected"
  },
  {
   "property": "C57",
   "status": "partial",
   "theorems": [
    "Cardano.Props.C57_accepted_string_canonical_partial",
    "Cardano.Props.C57_prefix_not_checked"
   ],
   "note": "The claim is false of the code: NewAddress ignores the human-readable part; C57_prefix_not_checked proves every base/enterprise/reward address is accepted under any other addr.../stake... prefix. The partial theorem gives the canonicity that does hold."
  },
  {
   "property": "C58",
   "status": "partial",
   "theorems": [
    "Cardano.Props.C58_builders_independent_partial",
    "Cardano.Props.C58_builders_share_keys"
   ],
   "note": "false when the slice has spare capacity, proved"
  },
  {
   "property": "C59",
   "status": "partial",
   "theorems": [
    "Cardano.Props.C59_submitted_body_is_signed_partial",
    "Cardano.Props.C59_map_order_breaks_signature"
   ],
   "note": "proved for deterministic metadata; false for maps, proved"
  },
  {
   "property": "C60",
   "status": "proved",
   "theorems": [
    "Cardano.Props.C60_witnesses_verify"
   ],
   "note": "Blake2b-256 and SHA-512 are parameters"
  },
  {
   "property": "C61",
   "status": "proved",
   "theorems": [
    "Cardano.Props.C61_public_key_injective"
   ],
   "note": ""
  },
  {
   "property": "C62",
   "status": "partial",
   "theorems": [
    "Cardano.Props.C62_parameters_partial",
    "Cardano.Props.C62_version_truncated",
    "Cardano.Props.C62_tip",
    "Cardano.Props.C62_min_utxo_exact",
    "Cardano.Props.C62_min_utxo_accepted"
   ],
   "note": "Proved for numbers that are not negative and versions below 256; outside they are changed silently (proved)."
  },
  {
   "property": "C63",
   "status": "proved",
   "theorems": [
    "Cardano.Props.C63_blockfrost_submits",
    "Cardano.Props.C63_cli_submits",
    "Cardano.Props.C63_cli_file_is_json",
    "Cardano.Props.C63_tx_hex"
   ],
   "note": "The service and the process are parameters. Which network the command line tool is told is C44."
  },
  {
   "property": "C64",
   "status": "proved",
   "theorems": [
    "Cardano.Props.C64_witness_matches_address"
   ],
   "note": "Blake2b-224 and Blake2b-256 are parameters."
  },
  {
   "property": "C65",
   "status": "proved",
   "theorems": [
    "Cardano.Props.C65_constructed_bytes",
    "Cardano.Props.C65_constructed_text",
    "Cardano.Props.C65_reported_network"
   ],
   "note": "Independent CIP-19 / CIP-5 / BIP-173 description. The text of pointer addresses is not claimed: it goes through a different library call and fails (C02)."
  },
  {
   "property": "C66",
   "status": "proved",
   "theorems": [
    "Cardano.Props.C66_accepted_checksum_is_crc32",
    "Cardano.Props.C66_written_checksum_is_crc32"
   ],
   "note": "IsCrc32 is divisibility by the generator in GF(2)[x]; it determines the checksum (checksum_iff)."
  },
  {
   "property": "C67",
   "status": "proved",
   "theorems": [
    "Cardano.Props.C67_encode_iff_bip173",
    "Cardano.Props.C67_decode_iff_bip173",
    "Cardano.Props.C67_decode_upper_iff_bip173"
   ],
   "note": "Both directions, lower-case and upper-case strings; mixed case is C10."
  },
  {
   "property": "C68",
   "status": "proved",
   "theorems": [
    "Cardano.Props.C68_byron_text_is_base58",
    "Cardano.Props.C68_base58_text_parsed"
   ],
   "note": "Base58 described by numbers and the literal alphabet."
  },
  {
   "property": "C69",
   "status": "proved",
   "theorems": [
    "Cardano.Props.C69_load_iff",
    "Cardano.Props.C69_complete_file",
    "Cardano.Props.C69_bad_value_reported",
    "Cardano.Props.C69_bad_version_reported"
   ],
   "note": "encoding/json is modelled: parser proved sound and complete for an independent grammar of RFC 8259, then storing into the struct."
  },
  {
   "property": "C70",
   "status": "partial",
   "theorems": [
    "Cardano.Props.C70_nonzero_is_stated",
    "Cardano.Props.C70_unstated_is_zero_partial"
   ],
   "note": "Only non-zero parameters are known to be stated; the claim is false for objects lacking the names and for null (proved)."
  },
  {
   "property": "C71",
   "status": "proved",
   "theorems": [
    "Cardano.Props.C71_protocol_iff",
    "Cardano.Props.C71_tip_iff"
   ],
   "note": "The process is a parameter. Which network it is told is C44."
  },
  {
   "property": "C72",
   "status": "proved",
   "theorems": [
    "Cardano.Props.C72_new_address_any_string",
    "Cardano.Props.C72_non_ascii_rejected",
    "Cardano.Props.C72_encode_any_prefix"
   ],
   "note": "UTF-8 decoding and strings.ToLower/ToUpper are modelled; the Unicode tables are a parameter with the entries for ASCII, U+212A and U+0130 given."
  },
  {
   "property": "C73",
   "status": "partial",
   "theorems": [
    "Cardano.Props.C73_decode_exact_partial",
    "Cardano.Props.C73_ascii_no_panic_partial",
    "Cardano.Props.C73_non_ascii_accepted",
    "Cardano.Props.C73_decode_panics"
   ],
   "note": "The exact set of accepted strings is proved; the claim itself is false, with two counterexamples."
  },
  {
   "property": "C74",
   "status": "partial",
   "theorems": [
    "Cardano.Props.C74_files_partial",
    "Cardano.Props.C74_left_open",
    "Cardano.Props.C74_error_after_submission",
    "Cardano.Props.cliSubmit_agrees"
   ],
   "note": "Files, single run and contents are proved for all failures; the descriptor is proved to stay open when writing or the tool fails."
  },
  {
   "property": "C75",
   "status": "partial",
   "theorems": [
    "Cardano.Props.C75_path_partial",
    "Cardano.Props.C75_empty_path"
   ],
   "note": "False for the empty path, proved."
  },
  {
   "property": "C76",
   "status": "partial",
   "theorems": [
    "Cardano.Props.C76_address_not_passed",
    "Cardano.Props.C76_file_not_passed"
   ],
   "note": "The claim is false for all inputs; this is what is proved."
  },
  {
   "property": "C77",
   "status": "partial",
   "theorems": [
    "Cardano.Props.C77_ledger_accepts_partial",
    "Cardano.Props.C77_succeeds"
   ],
   "note": "Ledger rules for transactions moving ada between key addresses, written independently. The provisos on the change amount, size, distinct inputs and fee are needed, see C20, C78-C82."
  },
  {
   "property": "C78",
   "status": "proved",
   "theorems": [
    "Cardano.Props.C78_accepted_amounts_true",
    "Cardano.Props.C78_duplicate_input_rejected",
    "Cardano.Props.C78_uncovered_rejected"
   ],
   "note": ""
  },
  {
   "property": "C79",
   "status": "partial",
   "theorems": [
    "Cardano.Props.C79_dust_change_rejected",
    "Cardano.Props.C79_dust_output_rejected",
    "Cardano.Props.C77_succeeds"
   ],
   "note": "The claim is false; proved that such transactions are built and rejected."
  },
  {
   "property": "C80",
   "status": "partial",
   "theorems": [
    "Cardano.Props.C80_mixed_networks_rejected",
    "Cardano.Props.C77_succeeds"
   ],
   "note": "The claim is false; proved that such transactions are built and rejected."
  },
  {
   "property": "C81",
   "status": "partial",
   "theorems": [
    "Cardano.Props.C81_oversize_rejected",
    "Cardano.Props.C77_succeeds"
   ],
   "note": "The claim is false; proved that such transactions are built and rejected."
  },
  {
   "property": "C82",
   "status": "partial",
   "theorems": [
    "Cardano.Props.C82_two_keys_rejected",
    "Cardano.Props.C138_build_first"
   ],
   "note": "The claim is false; proved that such transactions are rejected. It holds if Build is called before AddChangeIfNeeded and again after it (C138)."
  },
  {
   "property": "C83",
   "status": "proved",
   "theorems": [
    "Cardano.Props.C83_fresh_independent",
    "Cardano.Props.C83_derive",
    "Cardano.Props.C83_public",
    "Cardano.Props.C83_entropy",
    "Cardano.Props.C83_newXPrv",
    "Cardano.Props.C83_path",
    "Cardano.Props.C83_sign"
   ],
   "note": ""
  },
  {
   "property": "C84",
   "status": "partial",
   "theorems": [
    "Cardano.Props.C84_normalize_overwrites",
    "Cardano.Props.C84_append_overwrites_chain_code",
    "Cardano.Props.C84_accessors"
   ],
   "note": "The claim is false; the effects are proved exactly."
  },
  {
   "property": "C85",
   "status": "proved",
   "theorems": [
    "Cardano.Props.C85_metadata_wellformed"
   ],
   "note": "cbor.Marshal on Go values is modelled from the documentation of the library; maps are written in any order. A MarshalCBOR method is a fixed item; values that cannot be encoded are not modelled."
  },
  {
   "property": "C86",
   "status": "proved",
   "theorems": [
    "Cardano.Props.C86_order_changes_no_size",
    "Cardano.Props.C86_fee_sufficient_partial"
   ],
   "note": "The second theorem is C20 for this metadata, with its provisos."
  },
  {
   "property": "C87",
   "status": "partial",
   "theorems": [
    "Cardano.Props.C87_order_free_partial",
    "Cardano.Props.C87_accepted_only_if_encodings_agree",
    "Cardano.Props.C87_map_order_rejected",
    "Cardano.Props.C87_signed_is_submitted_iff"
   ],
   "note": "Proved for values whose maps have at most one entry (structs may have any number of fields); false for all others, proved."
  },
  {
   "property": "C88",
   "status": "partial",
   "theorems": [
    "Cardano.Props.C88_empty_metadata_rejected"
   ],
   "note": "The claim is false; proved that such transactions are rejected."
  },
  {
   "property": "C89",
   "status": "partial",
   "theorems": [
    "Cardano.Props.C89_mainnet_partial",
    "Cardano.Props.C89_testnet_rejected",
    "Cardano.Props.C89_other_types_rejected",
    "Cardano.Props.C89_written_network_invalid"
   ],
   "note": "True for main net public key addresses; false for all addresses of other networks and for script and redemption addresses, proved."
  },
  {
   "property": "C90",
   "status": "partial",
   "theorems": [
    "Cardano.Props.C90_transfer_accepted_partial",
    "Cardano.Props.C90_width_rejected"
   ],
   "note": "proved except for amounts close above 2^32 + 5000000 lovelace, where it is false (proved for most of them); go-bip39 and the service are parameters"
  },
  {
   "property": "C91",
   "status": "partial",
   "theorems": [
    "Cardano.Props.C91_selection",
    "Cardano.Props.C91_no_output_posts_garbage"
   ],
   "note": "false: the last suitable output is spent, and none is not reported; both proved for all wallets"
  },
  {
   "property": "C92",
   "status": "partial",
   "theorems": [
    "Cardano.Props.C92_restore_reports_partial",
    "Cardano.Props.C92_spaces_pass",
    "Cardano.Props.C92_transfer_ignores_mnemonic",
    "Cardano.Props.C92_transfer_from_public_wallet"
   ],
   "note": "true for restoring; false for the transfer, proved for all rejected mnemonics"
  },
  {
   "property": "C93",
   "status": "partial",
   "theorems": [
    "Cardano.Props.C93_ttl_exact",
    "Cardano.Props.C90_transfer_accepted_partial"
   ],
   "note": "true for tips below 2^32 - 300; the exact value for all tips is proved, it is another one above"
  },
  {
   "property": "C94",
   "status": "proved",
   "theorems": [
    "Cardano.Props.C94_restore_base",
    "Cardano.Props.C94_restore_enterprise",
    "Cardano.Props.C94_restore_flags",
    "Cardano.Props.C94_generate",
    "Cardano.Props.C94_decode"
   ],
   "note": "hash functions and go-bip39 are parameters; the remark on types above 1 is part of C94_restore_flags"
  },
  {
   "property": "C95",
   "status": "partial",
   "theorems": [
    "Cardano.Props.C95_tokens_rejected",
    "Cardano.Props.C95_transfer_tokens_rejected",
    "Cardano.Props.C95_ada_only_partial"
   ],
   "note": "false for every output with tokens: proved that the ledger rejects"
  },
  {
   "property": "C96",
   "status": "partial",
   "theorems": [
    "Cardano.Props.C96_any_order_before_partial",
    "Cardano.Props.C96_without_change_rejected",
    "Cardano.Props.C96_later_calls_balance",
    "Cardano.Props.C96_output_after_change_rejected",
    "Cardano.Props.C96_input_after_change_rejected",
    "Cardano.Props.C96_change_twice_rejected",
    "Cardano.Props.C96_late_fee_exact",
    "Cardano.Props.C96_ttl_after_change_rejected",
    "Cardano.Props.C96_metadata_after_change_rejected"
   ],
   "note": "true before AddChangeIfNeeded; for calls after it the exact balance and fee are proved, and rejection by the ledger"
  },
  {
   "property": "C97",
   "status": "partial",
   "theorems": [
    "Cardano.Props.C97_builders_independent",
    "Cardano.Props.C97_as_if_alone",
    "Cardano.Props.C97_objects_unchanged",
    "Cardano.Props.C97_new_objects",
    "Cardano.Props.C97_write_after_build",
    "Cardano.Props.C97_write_before_build_rejected",
    "Cardano.Props.C97_write_input_amount"
   ],
   "note": "true without writes by the caller; the effects of such writes are proved. The slice of keys is C58."
  },
  {
   "property": "C98",
   "status": "proved",
   "theorems": [
    "Cardano.Props.C98_five_passes",
    "Cardano.Props.C98_two_passes",
    "Cardano.Props.C98_one_pass",
    "Cardano.Props.C98_one_pass_rejected"
   ],
   "note": "The transaction is a value held by one caller. Metadata of changing size is not covered: see C86 for maps."
  },
  {
   "property": "C99",
   "status": "proved",
   "theorems": [
    "Cardano.Props.C99_body_is_hashed",
    "Cardano.Props.C99_body_in_bytes",
    "Cardano.Props.C99_too_early"
   ],
   "note": "Blake2b is a parameter."
  },
  {
   "property": "C100",
   "status": "proved",
   "theorems": [
    "Cardano.Props.C100_pay_accepted",
    "Cardano.Props.C100_unsigned_rejected",
    "Cardano.Props.C100_readme_rejected"
   ],
   "note": "The ledger is that of C77; the metadata, if any, is always encoded to the same bytes. The README uses older names of the functions; the program is modelled with the names the package has."
  },
  {
   "property": "C101",
   "status": "partial",
   "theorems": [
    "Cardano.Props.C101_dropped_character",
    "Cardano.Props.C101_wrong_length_partial",
    "Cardano.Props.C101_added_unnoticed",
    "Cardano.Props.C101_one_added_unnoticed",
    "Cardano.Props.C101_other_address"
   ],
   "note": "true for one character left out and for enterprise and reward addresses; false for characters added to base addresses, proved for every base address whose text ends in p; an added character can also give another address (an instance)"
  },
  {
   "property": "C102",
   "status": "proved",
   "theorems": [
    "Cardano.Props.C102_prefix_slip",
    "Cardano.Props.C102_prefix_exchanged"
   ],
   "note": "slips after which the text no longer begins with addr or stake are C103"
  },
  {
   "property": "C103",
   "status": "partial",
   "theorems": [
    "Cardano.Props.C103_accepted_text_partial",
    "Cardano.Props.C103_other_text_panics",
    "Cardano.Props.C103_leading_one",
    "Cardano.Props.C103_capitals"
   ],
   "note": "false: text without a checksum is accepted, other text panics, capitals panic or are misread; all proved for all such texts"
  },
  {
   "property": "C104",
   "status": "proved",
   "theorems": [
    "Cardano.Props.C104_linear",
    "Cardano.Props.C104_multiplicative",
    "Cardano.Props.C104_group",
    "Cardano.Props.C104_start",
    "Cardano.Props.C104_tables",
    "Cardano.Props.C104_untouched",
    "Cardano.Props.C104_scalar_mult",
    "Cardano.Props.C104_double_scalar_mult",
    "Cardano.Props.C104_from_bytes",
    "Cardano.Props.C104_requests",
    "Cardano.Props.C104_signatures"
   ],
   "note": "Calls one after the other, in one goroutine. The exported variable SqrtM1 is not passed to functions as a variable of the caller. Scalar functions write byte arrays only."
  },
  {
   "property": "C105",
   "status": "partial",
   "theorems": [
    "Cardano.Props.C105_byron_rejected",
    "Cardano.Props.C105_reward_reported",
    "Cardano.Props.C105_others_partial"
   ],
   "note": "False for Byron addresses. The ledger specification admits Shelley addresses in outputs; the first conclusion does not depend on it: the address of the output is not a byte string."
  },
  {
   "property": "C106",
   "status": "partial",
   "theorems": [
    "Cardano.Props.C106_bytes",
    "Cardano.Props.C106_collisions",
    "Cardano.Props.C106_not_read_back",
    "Cardano.Props.C106_spendable"
   ],
   "note": "False; what happens instead is proved for all lengths. There is no true part of the claim."
  },
  {
   "property": "C107",
   "status": "proved",
   "theorems": [
    "Cardano.Props.C107_only_own_outputs",
    "Cardano.Props.C107_others_rejected"
   ],
   "note": "Sizes below 2^63 and metadata that is always encoded to the same auxiliary data."
  },
  {
   "property": "C108",
   "status": "proved",
   "theorems": [
    "Cardano.Props.C108_payment",
    "Cardano.Props.C108_goes_on"
   ],
   "note": "The conditions are those of C77, which names what is missing there; the ledger is that of C77, one transaction after the other. Blake2b is a parameter, so that ids are new is a hypothesis."
  },
  {
   "property": "C109",
   "status": "proved",
   "theorems": [
    "Cardano.Props.C109_spent_once",
    "Cardano.Props.C109_not_twice"
   ],
   "note": "That ids are not used again is a hypothesis, since Blake2b is a parameter."
  },
  {
   "property": "C110",
   "status": "proved",
   "theorems": [
    "Cardano.Props.C110_spendable",
    "Cardano.Props.C110_real"
   ],
   "note": "The second theorem has no hash function as parameter. The spending transaction is under the conditions of C77."
  },
  {
   "property": "C111",
   "status": "proved",
   "theorems": [
    "Cardano.Props.C111_no_race",
    "Cardano.Props.C111_answers",
    "Cardano.Props.C111_variables",
    "Cardano.Props.C111_ends",
    "Cardano.Props.C111_signatures"
   ],
   "note": "Variables of a goroutine are not passed to others. One access to one limb is one step; the Go memory model gives programs without races this semantics."
  },
  {
   "property": "C112",
   "status": "proved",
   "theorems": [
    "Cardano.Props.C112_unchanged",
    "Cardano.Props.C112_reachable",
    "Cardano.Props.C112_made",
    "Cardano.Props.C112_converted",
    "Cardano.Props.C112_parsed",
    "Cardano.Props.C112_hash_shared",
    "Cardano.Props.C112_hash_shared_by_conversion",
    "Cardano.Props.C112_buffer_shared",
    "Cardano.Props.C112_parts",
    "Cardano.Props.C112_network_pointer",
    "Cardano.Props.C112_bytes_fresh"
   ],
   "note": "Any program, with pointers into addresses and assignments of its own. That hashes are shared with the slices they come from, and that NetworkInfo() gives a pointer into the address, is proved as well."
  },
  {
   "property": "C113",
   "status": "proved",
   "theorems": [
    "Cardano.Props.C113_not_paid",
    "Cardano.Props.C113_ignored_error",
    "Cardano.Props.C113_returned",
    "Cardano.Props.C113_not_reported"
   ],
   "note": "Builder modelled with outputs whose address may be nil; without nil it is the builder of the other properties (Missing.agree). The builder itself reports nothing (C113_not_reported)."
  },
  {
   "property": "C114",
   "status": "proved",
   "theorems": [
    "Cardano.Props.C114_watch_only",
    "Cardano.Props.C114_real"
   ],
   "note": "public derivation stated as in C35; the address text computed by the wallet is that of the address functions of the package for the derived public key; what these texts are is C03, C04"
  },
  {
   "property": "C115",
   "status": "proved",
   "theorems": [
    "Cardano.Props.C115_same_point",
    "Cardano.Props.C115_key_leaks"
   ],
   "note": "SHA-512 is a parameter; that it has no such collisions is not stated"
  },
  {
   "property": "C116",
   "status": "proved",
   "theorems": [
    "Cardano.Props.C116_no_race",
    "Cardano.Props.C116_answers",
    "Cardano.Props.C116_builder",
    "Cardano.Props.C116_ends",
    "Cardano.Props.C116_sign_races"
   ],
   "note": "Builders are not passed to other goroutines. One access to a field of a shared object is one step; the Go memory model gives programs without races this semantics. That the condition on Sign is needed is C116_sign_races."
  },
  {
   "property": "C117",
   "status": "partial",
   "theorems": [
    "Cardano.Props.C117_plain_partial",
    "Cardano.Props.C117_quoted",
    "Cardano.Props.C117_cli",
    "Cardano.Props.C117_refusal",
    "Cardano.Props.C117_hash"
   ],
   "note": "Holds for a service that answers with the bare digits. False for JSON answers, which Blockfrost gives: the quotation marks are kept, NewTxInput makes the empty id of it without complaint, and every transaction with that input is refused (proved). False for the command line tool, which prints a sentence or a JSON object (proved). Hash() of the transaction can be used instead (proved)."
  },
  {
   "property": "C118",
   "status": "partial",
   "theorems": [
    "Cardano.Props.C118_first_page",
    "Cardano.Props.C118_all_partial",
    "Cardano.Props.C118_outputs_missing"
   ],
   "note": "Holds for at most a hundred unspent outputs, the first page of the service. Beyond, outputs and their amounts are missing without an error (proved)."
  },
  {
   "property": "C119",
   "status": "partial",
   "theorems": [
    "Cardano.Props.C119_queries",
    "Cardano.Props.C119_same_partial",
    "Cardano.Props.C119_moves"
   ],
   "note": "Holds while the value is left alone. False otherwise (proved): the queries stay, submissions follow the pointer to another server."
  },
  {
   "property": "C120",
   "status": "partial",
   "theorems": [
    "Cardano.Props.C120_rejected",
    "Cardano.Props.C120_exact_partial",
    "Cardano.Props.C120_session_partial",
    "Cardano.Props.C120_bytes_unreported",
    "Cardano.Props.C120_unreported"
   ],
   "note": "metadata is accepted by the ledger exactly if it is of the prescribed form; the first half of the claim is false: no form of metadata leads to an error (a text of 65 bytes, a truth value, a nil)"
  },
  {
   "property": "C121",
   "status": "proved",
   "theorems": [
    "Cardano.Props.C121_protocol",
    "Cardano.Props.C121_tip",
    "Cardano.Props.C121_inputs",
    "Cardano.Props.C121_outputs_refused"
   ],
   "note": "the encoder of encoding/json is modelled on values made of ASCII strings; what it writes is a JSON text for the value (RFC 8259 grammar), and the decoder is the one of C69"
  },
  {
   "property": "C122",
   "status": "partial",
   "theorems": [
    "Cardano.Props.C122_prints_partial",
    "Cardano.Props.C122_ids_not_printed",
    "Cardano.Props.C122_failures",
    "Cardano.Props.C122_stops"
   ],
   "note": "everything but the transaction ids: they are printed in base64, never as the hexadecimal id (proved)"
  },
  {
   "property": "C123",
   "status": "proved",
   "theorems": [
    "Cardano.Props.C123_does_what_was_asked"
   ],
   "note": "the ledger is Ledger/Spec, with the transition Ledger.apply; sizes that Go and CBOR can hold, and metadata that is always encoded alike (BuilderFits)"
  },
  {
   "property": "C124",
   "status": "proved",
   "theorems": [
    "Cardano.Props.C124_expires",
    "Cardano.Props.C124_exactly"
   ],
   "note": "for all sequences of calls; SetTTL(0) means no expiry, which is stated"
  },
  {
   "property": "C125",
   "status": "partial",
   "theorems": [
    "Cardano.Props.C125_fee_exact",
    "Cardano.Props.C125_fee_at_most_partial",
    "Cardano.Props.C125_base_address",
    "Cardano.Props.C125_enterprise_overpays"
   ],
   "note": "exact difference proved; the claim is false for change addresses shorter than a base address (proved)"
  },
  {
   "property": "C126",
   "status": "partial",
   "theorems": [
    "Cardano.Props.C126_refused",
    "Cardano.Props.C126_filled_partial",
    "Cardano.Props.C126_witness_set"
   ],
   "note": "false for every transaction with inputs or outputs (proved); what is decoded nonetheless is stated exactly. cbor.Unmarshal is modelled on the types of the package from its documented behaviour"
  },
  {
   "property": "C127",
   "status": "partial",
   "theorems": [
    "Cardano.Props.C127_lists_partial",
    "Cardano.Props.C127_copied",
    "Cardano.Props.C127_overwritten",
    "Cardano.Props.C127_pays_placeholder"
   ],
   "note": "false for lists extended with append (proved, with the bytes of a transaction that pays the placeholder address); lists as read from the body are kept, proved for all sequences of calls"
  },
  {
   "property": "C128",
   "status": "proved",
   "theorems": [
    "Cardano.Props.C128_paths",
    "Cardano.Props.C128_public_keys",
    "Cardano.Props.C128_addresses"
   ],
   "note": "collisions are stated of the particular inputs that occur, not of some inputs; for public keys the condition is exact. For paths of different lengths there is the further case of a path that leads back to the root"
  },
  {
   "property": "C129",
   "status": "partial",
   "theorems": [
    "Cardano.Props.C129_fee_panics",
    "Cardano.Props.C129_rejected",
    "Cardano.Props.C129_not_reported",
    "Cardano.Props.C129_agree"
   ],
   "note": "false: nothing is reported, proved for all places; proved that the result is never accepted, and when the fee calculation panics"
  },
  {
   "property": "C130",
   "status": "proved",
   "theorems": [
    "Cardano.Props.C130_signature_binds",
    "Cardano.Props.C130_usable",
    "Cardano.Props.C130_altered",
    "Cardano.Props.C130_metadata",
    "Cardano.Props.C130_only_what_was_issued",
    "Cardano.Props.C130_zero_scalar"
   ],
   "note": "collisions are stated for the particular bodies; the scalar 0, which the package does not make, is shown to be an exception"
  },
  {
   "property": "C131",
   "status": "proved",
   "theorems": [
    "Cardano.Props.C131_any_order"
   ],
   "note": ""
  },
  {
   "property": "C132",
   "status": "proved",
   "theorems": [
    "Cardano.Props.C132_parent",
    "Cardano.Props.C132_account",
    "Cardano.Props.C132_spends"
   ],
   "note": "a fact of the derivation scheme that the package implements; an example shows that it fails for hardened indices"
  },
  {
   "property": "C133",
   "status": "proved",
   "theorems": [
    "Cardano.Props.C133_network",
    "Cardano.Props.C133_one_network",
    "Cardano.Props.C133_same_id"
   ],
   "note": ""
  },
  {
   "property": "C134",
   "status": "proved",
   "theorems": [
    "Cardano.Props.C134_payment",
    "Cardano.Props.C134_goes_on"
   ],
   "note": "the id of a transaction must not be one that the wallet knows already"
  },
  {
   "property": "C135",
   "status": "proved",
   "theorems": [
    "Cardano.Props.C135_strict",
    "Cardano.Props.C135_cofactor",
    "Cardano.Props.C135_agree",
    "Cardano.Props.C135_ledger"
   ],
   "note": "an equivalence: the exception is part of the statement"
  },
  {
   "property": "C136",
   "status": "proved",
   "theorems": [
    "Cardano.Props.C136_size",
    "Cardano.Props.C136_enough",
    "Cardano.Props.C136_by_hand"
   ],
   "note": "for the builder the amounts must avoid the widths at which its fee is short by a few bytes (C77), a condition on the input and output totals only"
  },
  {
   "property": "C137",
   "status": "proved",
   "theorems": [
    "Cardano.Props.C137_any_order"
   ],
   "note": ""
  },
  {
   "property": "C138",
   "status": "proved",
   "theorems": [
    "Cardano.Props.C138_build_first"
   ],
   "note": ""
  },
  {
   "property": "C139",
   "status": "proved",
   "theorems": [
    "Cardano.Props.C139_deterministic",
    "Cardano.Props.C139_id",
    "Cardano.Props.C139_metadata"
   ],
   "note": "the encoder of the RFC is written independently (Cbor/Canon.lean), and its heads are proved to be the shortest"
  },
  {
   "property": "C140",
   "status": "proved",
   "theorems": [
    "Cardano.Props.C140_exactly",
    "Cardano.Props.C140_no_reserve"
   ],
   "note": "the provisos of the second theorem are those of C125_base_address, under which the fee is exactly the least fee"
  },
  {
   "property": "C141",
   "status": "proved",
   "theorems": [
    "Cardano.Props.C141_size",
    "Cardano.Props.C141_session_size",
    "Cardano.Props.C141_fee",
    "Cardano.Props.C141_input_cost",
    "Cardano.Props.C141_output_cost",
    "Cardano.Props.C141_lacking"
   ],
   "note": "fee parameters of the order of magnitude of those in use, as in C20; what remains of the inputs is at least 200000"
  },
  {
   "property": "C142",
   "status": "proved",
   "theorems": [
    "Cardano.Props.C142_once",
    "Cardano.Props.C142_again",
    "Cardano.Props.C142_follow_up"
   ],
   "note": "ids of transactions are not used again, as in C109"
  },
  {
   "property": "C143",
   "status": "proved",
   "theorems": [
    "Cardano.Props.C143_sweep",
    "Cardano.Props.C143_batches"
   ],
   "note": "one key; the provisos on the sum are those of C136; ids of transactions are not used again"
  },
  {
   "property": "C144",
   "status": "proved",
   "theorems": [
    "Cardano.Props.C144_same_id",
    "Cardano.Props.C144_collected",
    "Cardano.Props.C144_as_together",
    "Cardano.Props.C144_succeeds",
    "Cardano.Props.C144_missing",
    "Cardano.Props.C144_other"
   ],
   "note": "keys of 96 bytes with scalars below 2^255; metadata absent or always encoded to the same auxiliary data"
  },
  {
   "property": "C145",
   "status": "proved",
   "theorems": [
    "Cardano.Props.C145_size",
    "Cardano.Props.C145_later",
    "Cardano.Props.C145_main_network",
    "Cardano.Props.C145_rejected"
   ],
   "note": "ada only, outputs without datum; addresses that can receive (CIP-19 types 0 to 7)"
  },
  {
   "property": "C146",
   "status": "proved",
   "theorems": [
    "Cardano.Props.C146_copy",
    "Cardano.Props.C146_cold"
   ],
   "note": "keys of 96 bytes with scalars below 2^255; AddChangeIfNeeded is called before Build (C138 for the other order)"
  },
  {
   "property": "C147",
   "status": "proved",
   "theorems": [
    "Cardano.Props.C147_sign",
    "Cardano.Props.C147_public",
    "Cardano.Props.C147_derive",
    "Cardano.Props.C147_root",
    "Cardano.Props.C147_results",
    "Cardano.Props.C147_verification",
    "Cardano.Props.C147_two_keys"
   ],
   "note": "accesses to arrays and to variables whose address is taken, as in the source; the hash functions are taken to read their input in order and to access otherwise what depends on its length only; int64 locals of the scalar arithmetic are in registers; what a compiler makes of it is not modelled"
  },
  {
   "property": "C148",
   "status": "partial",
   "theorems": [
    "Cardano.Props.C148_replaced_partial",
    "Cardano.Props.C148_exchanged_partial",
    "Cardano.Props.C148_left_out",
    "Cardano.Props.C148_added",
    "Cardano.Props.C148_first_unnoticed",
    "Cardano.Props.C148_case_unnoticed"
   ],
   "note": "the code violates the rest: a wrong character among the first 13 can go unnoticed (two counterexamples; the bound is exact), a character left out or added makes NewAddress panic (for all such addresses); addresses with attributes or a checksum below 65536 are not covered"
  },
  {
   "property": "C149",
   "status": "proved",
   "theorems": [
    "Cardano.Props.C149_same_transaction",
    "Cardano.Props.C149_conservation",
    "Cardano.Props.C149_accepted_fits",
    "Cardano.Props.C149_large_change_rejected",
    "Cardano.Props.C149_listing",
    "Cardano.Props.C149_listing_exactly",
    "Cardano.Props.C149_listing_rows",
    "Cardano.Props.C149_listing_rows_exactly"
   ],
   "note": "fee parameters below 2^31 and 2^16, transactions of at most 16384 bytes for the first; a negative amount (which neither source writes) is not compared"
  },
  {
   "property": "C150",
   "status": "proved",
   "theorems": [
    "Cardano.Props.C150_byron_address",
    "Cardano.Props.C150_address_bytes",
    "Cardano.Props.C150_address_text",
    "Cardano.Props.C150_parameter_file",
    "Cardano.Props.C150_node_answers",
    "Cardano.Props.C150_service_parameters"
   ],
   "note": "for Blockfrost: fees and size that fit a non-negative int of the machine (the Blockfrost library, which reads them, is not modelled), and a negative least value is not compared; the text of an error may differ"
  },
  {
   "property": "C151",
   "status": "proved",
   "theorems": [
    "Cardano.Props.C151_reported",
    "Cardano.Props.C151_build_reported",
    "Cardano.Props.C151_fee_zero",
    "Cardano.Props.C151_rejected"
   ],
   "note": "metadata whose encoder returns an error (a panic of a method of the metadata is a panic of the call); the stated amounts of the inputs are those of the ledger and below 2^64 together; a failure of only the first of the two fee passes changes nothing and is not covered"
  },
  {
   "property": "C152",
   "status": "proved",
   "theorems": [
    "Cardano.Props.C152_excluded",
    "Cardano.Props.C152_chain"
   ],
   "note": "inputs are changed by AddInputs only (a user can also assign to the fields of the body); that ids are not used again is a hypothesis, as in C109"
  },
  {
   "property": "C153",
   "status": "proved",
   "theorems": [
    "Cardano.Props.C153_read_back",
    "Cardano.Props.C153_read_text",
    "Cardano.Props.C153_distinct",
    "Cardano.Props.C153_ordinary"
   ],
   "note": "hash and payload have fewer than 2^63 bytes together; a nil and an empty payload count as the same (omitempty)"
  }
 ]
}