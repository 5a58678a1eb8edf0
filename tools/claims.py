claim("C08", "proved", ["C08_bech32_roundtrip"])
claim("C09", "proved", ["C09_bech32_detects_burst", "C09_bech32_detects_two", "C09_bech32_detects_three", "C09_bech32_detects_four", "C09_bech32_detects_four_long", "C09_four_not_always_detected", "C09_four_other_arrangement"],
      "the last two theorems exhibit base addresses for the two exceptional arrangements; the single-character case is a burst of length one; letter case alone is not counted as a change")
claim("C10", "proved", ["C10_bech32_canonical", "C10_bech32_injective", "C10_bech32_mixed_case_rejected"])
claim("C11", "proved", ["C11_regroup_8_to_5", "C11_regroup_5_to_8"])
claim("C55", "proved", ["C55_polymod_is_bch_remainder", "C55_checksum_iff_remainder_one"])
claim("C01", "proved", ["C01_bytes_roundtrip"])
claim("C02", "partial", ["C02_string_roundtrip_partial", "C02_pointer_string_empty"],
      "proved for base, enterprise and reward addresses; false for pointer addresses (String is always empty), proved")
claim("C03", "proved", ["C03_hex_roundtrip", "C03_bad_hex_rejected"])
claim("C04", "partial", ["C04_byron_bytes_roundtrip", "C04_byron_string_roundtrip_partial", "C04_byron_string_roundtrip_general", "C04_byron_string_misread", "C04_limits_roundtrip", "C04_limits_refine", "C04_limits_shelley"],
      "bytes: all payloads; strings: addresses of up to 2039212 bytes, beyond that provided the base58 text does not start with addr/stake; with 2039213 bytes it always does, and the string is refused; the limits of the CBOR library change neither this nor any accepted address nor any panic")
claim("C05", "partial", ["C05_parse_faithful_partial", "C05_base_not_faithful", "C05_network_not_faithful", "C05_pointer_not_faithful"],
      "proved under provisos; the three ways in which the full claim is false are proved")
claim("C06", "partial", ["C06_panics_iff_partial", "C06_hex_panics_iff_partial", "C06_text_panics_iff_partial", "C06_parse_panics"],
      "exact characterisation of the panicking inputs; the full claim is false, proved")
claim("C07", "partial", ["C07_network_preserved_partial", "C07_unknown_network_reported_as_testnet_id"],
      "proved for network nibbles 0 and 1; false for the others, proved")
claim("C12", "proved", ["C12_header_decides_type"])
claim("C13", "proved", ["C13_conversions_keep_credentials"])
claim("C14", "proved", ["C14_varnat_roundtrip"])
claim("C15", "partial", ["C15_varnat_exact_partial", "C15_overflow_accepted"],
      "values are exact modulo 2^64; overflow is accepted silently, proved")
claim("C16", "proved", ["C16_bytes_injective", "C16_string_injective"])
claim("C47", "proved", ["C47_byron_burst_detected", "C47_byron_four_bytes_detected", "C47_byron_two_bits_detected", "C47_rejected"],
      "bit order is that of CRC-32 (least significant bit of each byte first)")
claim("C48", "proved", ["C48_accepted_byron_valid","C48_inner_trailing"],"C48_inner_trailing: bytes behind the content inside the payload are ignored by the lenient CBOR library and an error for the strict one.")
claim("C49", "partial", ["C49_no_alias_partial", "C49_parsed_address_aliases_buffer"],
      "Byron addresses and all scalar fields do not alias; credential payloads do, proved")
claim("C50", "proved", ["C50_layout"])
claim("C56","proved",["C56_mistyped_burst_rejected","C56_mistyped_two_rejected","C56_mistyped_three_rejected","C56_mistyped_four_rejected","C56_four_wrong_characters","C56_three_wrong_characters","C56_separator_typo_accepted"],"replacement by the separator 1 is excluded from the statement; the last theorem shows a base address text where it goes undetected")
claim("C57","partial",["C57_accepted_string_canonical_partial","C57_prefix_not_checked"],"The claim is false of the code: NewAddress ignores the human-readable part; C57_prefix_not_checked proves every base/enterprise/reward address is accepted under any other addr.../stake... prefix. The partial theorem gives the canonicity that does hold.")

claim("C17","proved",["C17_bytes_wellformed"],"metadata is an arbitrary encoder output; it is assumed to be well-formed CBOR itself")
claim("C18","proved",["C18_bytes_injective"])
claim("C19","proved",["C19_fee_linear","C19_fee_exact"])
claim("C20","partial",["C20_fee_sufficient_partial","C20_exact","C20_multisig_underpays","C20_width_underpays"],
      "proved for one key and a change address not longer than a base address, when the change amount is not wider than the placeholder; false otherwise: proved in general for two or more keys and by a concrete transaction for a wider change amount")
claim("C21","proved",["C21_conservation_mod64","C21_value_conserved"])
claim("C22","partial",["C22_change_bounded_partial","C22_change_from_nothing","C22_zero_change_output"],
      "proved with sufficient inputs; false for every builder state with insufficient inputs, proved")
claim("C23","partial",["C23_minfee_pure_partial","C23_minfee_adds_witness"],"false when the witness set is empty, proved; everything else is unchanged")
claim("C24","proved",["C24_build_signs_body","C24_signed_hash_is_txid"],"hash, public key and signature functions are parameters here; C36, C37 are about those of the package")
claim("C25","proved",["C25_build_idempotent","C25_build_keeps"])
claim("C26","proved",["C26_hash_is_hash_of_body","C26_hash_ignores_witnesses"])
claim("C27","partial",["C27_aux_hash_partial","C27_map_order_breaks_hash","C27_stale_hash"],"proved when the encoder calls agree; false for map metadata, proved")
claim("C28","partial",["C28_built_tx_stable_partial","C28_built_tx_changes","C28_minfee_changes_built_tx"],"the body is shared: false for AddInputs, AddOutputs, SetTTL and (without keys) MinFee, proved")
claim("C29","proved",["C29_history","C29_new"])
claim("C30","partial",["C30_output_address_partial","C30_byron_not_bytestring","C30_reward_never_serialises"],"proved for base, enterprise and pointer addresses; false for Byron and reward addresses, proved")
claim("C31","partial",["C31_hash_kept_partial","C31_malformed_hex_accepted","C31_odd_length_truncated","C31_bad_id_rejected"],"malformed hex is accepted silently, proved; an id of another length makes the transaction unreadable for the ledger, proved")
claim("C54","partial",["C54_minfee_ge_fixed_partial","C54_minfee_zero"],"false with an output that does not serialise, proved")
claim("C58","partial",["C58_builders_independent_partial","C58_builders_share_keys"],"false when the slice has spare capacity, proved")
claim("C59","partial",["C59_submitted_body_is_signed_partial","C59_map_order_breaks_signature"],"proved for deterministic metadata; false for maps, proved")

claim("C32","proved",["C32_root_key","C32_bip39_root_key"],"hash functions are parameters with the documented output sizes")
claim("C33","proved",["C33_derive"],"hash functions and public key function are parameters")
claim("C34","proved",["C34_path_scalars"])
claim("C43","proved",["C43_hash_constructors","C43_hash_functions"])

claim("C38","proved",["C38_reduce","C38_mulAdd"],"absence of 64-bit overflow is part of the proof: Verif/Ed25519/Machine.lean, bounds_sound")
claim("C53","proved",["C53_minimal","C53_reduced_passes"])

claim("C39","proved",["C39_add","C39_sub","C39_neg","C39_mul","C39_square","C39_square2","C39_invert"],
      "bounds are those of the comments in the source; absence of 32- and 64-bit overflow is part of the proof")
claim("C40","proved",["C40_toBytes","C40_fromBytes","C40_canonical","C40_roundtrip","C40_predicates"])

claim("C35","proved",["C35_soft_derivation","C35_soft_path"],"hash functions are parameters with the documented output sizes; scalars below 2^255 - 2^227, which C34 guarantees")
claim("C36","proved",["C36_public_key","C36_range","C36_chain_code"],"C36_range: for which of all 2^256 scalars it is true (a few beyond 2^255; false for the rest)")
claim("C37","proved",["C37_signature_valid", "C37_nonce"],"SHA-512 is a parameter")
claim("C41","proved",["C41_points","C41_group_law","C41_add_sub","C41_mixed","C41_double","C41_convert"],"includes the proof that the curve points form a group")
claim("C42","proved",["C42_base_point","C42_order","C42_base","C42_bi"])
claim("C51","proved",["C51_encoding_unique","C51_toBytes","C51_accepts","C51_result","C51_roundtrip","C51_accepts_nonencodings"],
      "the requested sign cannot be met for x = 0; strings that are no encodings are accepted (unlike RFC 8032), proved")
claim("C52","proved",["C52_double_scalar_mult"])
claim("C60","proved",["C60_witnesses_verify"],"Blake2b-256 and SHA-512 are parameters")
claim("C61","proved",["C61_public_key_injective"])

claim("C44", "partial", ["Cardano.Props.C44_blockfrost_partial", "Cardano.Props.C44_cli_wrong_network", "Cardano.Props.C44_cli_argument"],
  "Holds for the Blockfrost client. False for the cardano-cli client, for every network and command (proved): network 0 runs with --mainnet, every other network passes option and magic as one argument.")
claim("C45", "partial", ["Cardano.Props.C45_rows_partial", "Cardano.Props.C45_always_panics", "Cardano.Props.C45_never_an_input"],
  "The loop over rows is right on well-formed tables of any size, but the claim is false (proved): every output of at least four bytes panics, and no input is ever returned, since the number of bytes is used as the number of lines.")
claim("C46", "partial", ["Cardano.Props.C46_utxos_partial", "Cardano.Props.C46_index_truncated", "Cardano.Props.C46_last_lovelace_wins", "Cardano.Props.C46_negative_accepted", "Cardano.Props.C46_quantity_exact"],
  "Proved for indices below 2^16, amounts below 2^63 and one lovelace entry per UTXO. Outside, indices are truncated, only the last lovelace entry counts and negative quantities become huge amounts (proved).")
claim("C62", "partial", ["Cardano.Props.C62_parameters_partial", "Cardano.Props.C62_version_truncated", "Cardano.Props.C62_tip", "Cardano.Props.C62_min_utxo_exact", "Cardano.Props.C62_min_utxo_accepted"],
  "Proved for numbers that are not negative and versions below 256; outside they are changed silently (proved).")
claim("C63", "proved", ["Cardano.Props.C63_blockfrost_submits", "Cardano.Props.C63_cli_submits", "Cardano.Props.C63_cli_file_is_json", "Cardano.Props.C63_tx_hex"],
  "The service and the process are parameters. Which network the command line tool is told is C44.")

claim("C64", "proved", ["Cardano.Props.C64_witness_matches_address"], "Blake2b-224 and Blake2b-256 are parameters.")
claim("C65","proved",["C65_constructed_bytes","C65_constructed_text","C65_reported_network"],"Independent CIP-19 / CIP-5 / BIP-173 description. The text of pointer addresses is not claimed: it goes through a different library call and fails (C02).")
claim("C66","proved",["C66_accepted_checksum_is_crc32","C66_written_checksum_is_crc32"],"IsCrc32 is divisibility by the generator in GF(2)[x]; it determines the checksum (checksum_iff).")
claim("C67","proved",["C67_encode_iff_bip173","C67_decode_iff_bip173","C67_decode_upper_iff_bip173"],"Both directions, lower-case and upper-case strings; mixed case is C10.")
claim("C68","proved",["C68_byron_text_is_base58","C68_base58_text_parsed"],"Base58 described by numbers and the literal alphabet.")
claim("C69","proved",["C69_load_iff","C69_complete_file","C69_bad_value_reported","C69_bad_version_reported"],"encoding/json is modelled: parser proved sound and complete for an independent grammar of RFC 8259, then storing into the struct.")
claim("C70","partial",["C70_nonzero_is_stated","C70_unstated_is_zero_partial"],"Only non-zero parameters are known to be stated; the claim is false for objects lacking the names and for null (proved).")
claim("C71","proved",["C71_protocol_iff","C71_tip_iff"],"The process is a parameter. Which network it is told is C44.")
claim("C72","proved",["C72_new_address_any_string","C72_non_ascii_rejected","C72_encode_any_prefix"],"UTF-8 decoding and strings.ToLower/ToUpper are modelled; the Unicode tables are a parameter with the entries for ASCII, U+212A and U+0130 given.")
claim("C73","partial",["C73_decode_exact_partial","C73_ascii_no_panic_partial","C73_non_ascii_accepted","C73_decode_panics"],"The exact set of accepted strings is proved; the claim itself is false, with two counterexamples.")

claim("C74","partial",["C74_files_partial","C74_left_open","C74_error_after_submission","cliSubmit_agrees"],"Files, single run and contents are proved for all failures; the descriptor is proved to stay open when writing or the tool fails.")
claim("C75","partial",["C75_path_partial","C75_empty_path"],"False for the empty path, proved.")
claim("C76","partial",["C76_address_not_passed","C76_file_not_passed"],"The claim is false for all inputs; this is what is proved.")

claim("C77","partial",["C77_ledger_accepts_partial","C77_succeeds"],"Ledger rules for transactions moving ada between key addresses, written independently. The provisos on the change amount, size, distinct inputs and fee are needed, see C20, C78-C82.")
claim("C78","proved",["C78_accepted_amounts_true","C78_duplicate_input_rejected","C78_uncovered_rejected"])
claim("C79","partial",["C79_dust_change_rejected","C79_dust_output_rejected","C77_succeeds"],"The claim is false; proved that such transactions are built and rejected.")
claim("C80","partial",["C80_mixed_networks_rejected","C77_succeeds"],"The claim is false; proved that such transactions are built and rejected.")
claim("C81","partial",["C81_oversize_rejected","C77_succeeds"],"The claim is false; proved that such transactions are built and rejected.")
claim("C82","partial",["C82_two_keys_rejected","C138_build_first"],"The claim is false; proved that such transactions are rejected. It holds if Build is called before AddChangeIfNeeded and again after it (C138).")

claim("C83","proved",["C83_fresh_independent","C83_derive","C83_public","C83_entropy","C83_newXPrv","C83_path","C83_sign"])
claim("C84","partial",["C84_normalize_overwrites","C84_append_overwrites_chain_code","C84_accessors"],"The claim is false; the effects are proved exactly.")

claim("C85","proved",["C85_metadata_wellformed"],"cbor.Marshal on Go values is modelled from the documentation of the library; maps are written in any order. A MarshalCBOR method is a fixed item; values that cannot be encoded are not modelled.")
claim("C86","proved",["C86_order_changes_no_size","C86_fee_sufficient_partial"],"The second theorem is C20 for this metadata, with its provisos.")
claim("C87","partial",["C87_order_free_partial","C87_accepted_only_if_encodings_agree","C87_map_order_rejected","C87_signed_is_submitted_iff"],"Proved for values whose maps have at most one entry (structs may have any number of fields); false for all others, proved.")
claim("C88","partial",["C88_empty_metadata_rejected"],"The claim is false; proved that such transactions are rejected.")

claim("C89","partial",["C89_mainnet_partial","C89_testnet_rejected","C89_other_types_rejected","C89_written_network_invalid"],"True for main net public key addresses; false for all addresses of other networks and for script and redemption addresses, proved.")
claim("C90","partial",["C90_transfer_accepted_partial","C90_width_rejected"],"proved except for amounts close above 2^32 + 5000000 lovelace, where it is false (proved for most of them); go-bip39 and the service are parameters")
claim("C91","partial",["C91_selection","C91_no_output_posts_garbage"],"false: the last suitable output is spent, and none is not reported; both proved for all wallets")
claim("C92","partial",["C92_restore_reports_partial","C92_spaces_pass","C92_transfer_ignores_mnemonic","C92_transfer_from_public_wallet"],"true for restoring; false for the transfer, proved for all rejected mnemonics")
claim("C93","partial",["C93_ttl_exact","C90_transfer_accepted_partial"],"true for tips below 2^32 - 300; the exact value for all tips is proved, it is another one above")
claim("C94","proved",["C94_restore_base","C94_restore_enterprise","C94_restore_flags","C94_generate","C94_decode"],"hash functions and go-bip39 are parameters; the remark on types above 1 is part of C94_restore_flags")
claim("C95","partial",["C95_tokens_rejected","C95_transfer_tokens_rejected","C95_ada_only_partial"],"false for every output with tokens: proved that the ledger rejects")
claim("C96","partial",["C96_any_order_before_partial","C96_without_change_rejected","C96_later_calls_balance","C96_output_after_change_rejected","C96_input_after_change_rejected","C96_change_twice_rejected","C96_late_fee_exact","C96_ttl_after_change_rejected","C96_metadata_after_change_rejected"],"true before AddChangeIfNeeded; for calls after it the exact balance and fee are proved, and rejection by the ledger")
claim("C97","partial",["C97_builders_independent","C97_as_if_alone","C97_objects_unchanged", "C97_new_objects","C97_write_after_build","C97_write_before_build_rejected","C97_write_input_amount"],"true without writes by the caller; the effects of such writes are proved. The slice of keys is C58.")
claim("C98","proved",["C98_five_passes","C98_two_passes","C98_one_pass","C98_one_pass_rejected"],"The transaction is a value held by one caller. Metadata of changing size is not covered: see C86 for maps.")
claim("C99","proved",["C99_body_is_hashed","C99_body_in_bytes","C99_too_early"],"Blake2b is a parameter.")
claim("C100","proved",["C100_pay_accepted","C100_unsigned_rejected","C100_readme_rejected"],"The ledger is that of C77; the metadata, if any, is always encoded to the same bytes. The README uses older names of the functions; the program is modelled with the names the package has.")
claim("C101","partial",["C101_dropped_character","C101_wrong_length_partial","C101_added_unnoticed","C101_one_added_unnoticed", "C101_other_address"],"true for one character left out and for enterprise and reward addresses; false for characters added to base addresses, proved for every base address whose text ends in p; an added character can also give another address (an instance)")
claim("C102","proved",["C102_prefix_slip","C102_prefix_exchanged"],"slips after which the text no longer begins with addr or stake are C103")
claim("C103","partial",["C103_accepted_text_partial","C103_other_text_panics","C103_leading_one","C103_capitals"],"false: text without a checksum is accepted, other text panics, capitals panic or are misread; all proved for all such texts")
claim("C104","proved",["C104_linear","C104_multiplicative","C104_group","C104_start","C104_tables","C104_untouched","C104_scalar_mult","C104_double_scalar_mult","C104_from_bytes","C104_requests","C104_signatures"],"Calls one after the other, in one goroutine. The exported variable SqrtM1 is not passed to functions as a variable of the caller. Scalar functions write byte arrays only.")
claim("C105","partial",["C105_byron_rejected","C105_reward_reported","C105_others_partial"],"False for Byron addresses. The ledger specification admits Shelley addresses in outputs; the first conclusion does not depend on it: the address of the output is not a byte string.")
claim("C106","partial",["C106_bytes","C106_collisions","C106_not_read_back","C106_spendable"],"False; what happens instead is proved for all lengths. There is no true part of the claim.")
claim("C107","proved",["C107_only_own_outputs","C107_others_rejected"],"Sizes below 2^63 and metadata that is always encoded to the same auxiliary data.")
claim("C108","proved",["C108_payment","C108_goes_on"],"The conditions are those of C77, which names what is missing there; the ledger is that of C77, one transaction after the other. Blake2b is a parameter, so that ids are new is a hypothesis.")
claim("C109","proved",["C109_spent_once","C109_not_twice"],"That ids are not used again is a hypothesis, since Blake2b is a parameter.")
claim("C110","proved",["C110_spendable","C110_real"],"The second theorem has no hash function as parameter. The spending transaction is under the conditions of C77.")
claim("C111","proved",["C111_no_race","C111_answers","C111_variables","C111_ends","C111_signatures"],"Variables of a goroutine are not passed to others. One access to one limb is one step; the Go memory model gives programs without races this semantics.")
claim("C112","proved",["C112_unchanged","C112_reachable","C112_made","C112_converted","C112_parsed","C112_hash_shared","C112_hash_shared_by_conversion","C112_buffer_shared","C112_parts","C112_network_pointer","C112_bytes_fresh"],"Any program, with pointers into addresses and assignments of its own. That hashes are shared with the slices they come from, and that NetworkInfo() gives a pointer into the address, is proved as well.")
claim("C113","proved",["C113_not_paid","C113_ignored_error","C113_returned","C113_not_reported"],"Builder modelled with outputs whose address may be nil; without nil it is the builder of the other properties (Missing.agree). The builder itself reports nothing (C113_not_reported).")
claim("C114","proved",["C114_watch_only","C114_real"],"public derivation stated as in C35; the address text computed by the wallet is that of the address functions of the package for the derived public key; what these texts are is C03, C04")
claim("C115","proved",["C115_same_point","C115_key_leaks"],"SHA-512 is a parameter; that it has no such collisions is not stated")
claim("C116","proved",["C116_no_race","C116_answers","C116_builder","C116_ends","C116_sign_races"],"Builders are not passed to other goroutines. One access to a field of a shared object is one step; the Go memory model gives programs without races this semantics. That the condition on Sign is needed is C116_sign_races.")
claim("C117","partial",["C117_plain_partial","C117_quoted","C117_cli","C117_refusal","C117_hash"],"Holds for a service that answers with the bare digits. False for JSON answers, which Blockfrost gives: the quotation marks are kept, NewTxInput makes the empty id of it without complaint, and every transaction with that input is refused (proved). False for the command line tool, which prints a sentence or a JSON object (proved). Hash() of the transaction can be used instead (proved).")
claim("C118","partial",["C118_first_page","C118_all_partial","C118_outputs_missing"],"Holds for at most a hundred unspent outputs, the first page of the service. Beyond, outputs and their amounts are missing without an error (proved).")
claim("C119","partial",["C119_queries","C119_same_partial","C119_moves"],"Holds while the value is left alone. False otherwise (proved): the queries stay, submissions follow the pointer to another server.")
claim("C120", "partial", ["C120_rejected", "C120_exact_partial", "C120_session_partial", "C120_bytes_unreported", "C120_unreported"],
      "metadata is accepted by the ledger exactly if it is of the prescribed form; the first half of the claim is false: no form of metadata leads to an error (a text of 65 bytes, a truth value, a nil)")
claim("C121", "proved", ["C121_protocol", "C121_tip", "C121_inputs", "C121_outputs_refused"],
      "the encoder of encoding/json is modelled on values made of ASCII strings; what it writes is a JSON text for the value (RFC 8259 grammar), and the decoder is the one of C69")
claim("C122", "partial", ["C122_prints_partial", "C122_ids_not_printed", "C122_failures", "C122_stops"],
      "everything but the transaction ids: they are printed in base64, never as the hexadecimal id (proved)")
claim("C123", "proved", ["C123_does_what_was_asked"], "the ledger is Ledger/Spec, with the transition Ledger.apply; sizes that Go and CBOR can hold, and metadata that is always encoded alike (BuilderFits)")
claim("C124", "proved", ["C124_expires", "C124_exactly"], "for all sequences of calls; SetTTL(0) means no expiry, which is stated")
claim("C125", "partial", ["C125_fee_exact", "C125_fee_at_most_partial", "C125_base_address", "C125_enterprise_overpays"],
      "exact difference proved; the claim is false for change addresses shorter than a base address (proved)")
claim("C126", "partial", ["C126_refused", "C126_filled_partial", "C126_witness_set"],
      "false for every transaction with inputs or outputs (proved); what is decoded nonetheless is stated exactly. cbor.Unmarshal is modelled on the types of the package from its documented behaviour")
claim("C127", "partial", ["C127_lists_partial", "C127_copied", "C127_overwritten", "C127_pays_placeholder"],
      "false for lists extended with append (proved, with the bytes of a transaction that pays the placeholder address); lists as read from the body are kept, proved for all sequences of calls")
claim("C128", "proved", ["C128_paths", "C128_public_keys", "C128_addresses"],
      "collisions are stated of the particular inputs that occur, not of some inputs; for public keys the condition is exact. For paths of different lengths there is the further case of a path that leads back to the root")
claim("C129", "partial", ["C129_fee_panics", "C129_rejected", "C129_not_reported", "C129_agree"],
      "false: nothing is reported, proved for all places; proved that the result is never accepted, and when the fee calculation panics")
claim("C130", "proved", ["C130_signature_binds", "C130_usable", "C130_altered", "C130_metadata", "C130_only_what_was_issued", "C130_zero_scalar"],
      "collisions are stated for the particular bodies; the scalar 0, which the package does not make, is shown to be an exception")
claim("C131", "proved", ["C131_any_order"], "")
claim("C132", "proved", ["C132_parent", "C132_account", "C132_spends"],
      "a fact of the derivation scheme that the package implements; an example shows that it fails for hardened indices")
claim("C133", "proved", ["C133_network", "C133_one_network", "C133_same_id"], "")
claim("C134", "proved", ["C134_payment", "C134_goes_on"], "the id of a transaction must not be one that the wallet knows already")
claim("C135", "proved", ["C135_strict", "C135_cofactor", "C135_agree", "C135_ledger"],
      "an equivalence: the exception is part of the statement")
claim("C136", "proved", ["C136_size", "C136_enough", "C136_by_hand"],
      "for the builder the amounts must avoid the widths at which its fee is short by a few bytes (C77), a condition on the input and output totals only")
claim("C137", "proved", ["C137_any_order"], "")
claim("C138", "proved", ["C138_build_first"], "")
claim("C139", "proved", ["C139_deterministic", "C139_id", "C139_metadata"], "the encoder of the RFC is written independently (Cbor/Canon.lean), and its heads are proved to be the shortest")
claim("C140", "proved", ["C140_exactly", "C140_no_reserve"], "the provisos of the second theorem are those of C125_base_address, under which the fee is exactly the least fee")
claim("C141", "proved", ["C141_size", "C141_session_size", "C141_fee", "C141_input_cost", "C141_output_cost", "C141_lacking"], "fee parameters of the order of magnitude of those in use, as in C20; what remains of the inputs is at least 200000")
claim("C142", "proved", ["C142_once", "C142_again", "C142_follow_up"], "ids of transactions are not used again, as in C109")
claim("C143", "proved", ["C143_sweep", "C143_batches"], "one key; the provisos on the sum are those of C136; ids of transactions are not used again")
claim("C144", "proved", ["C144_same_id", "C144_collected", "C144_as_together", "C144_succeeds", "C144_missing", "C144_other"], "keys of 96 bytes with scalars below 2^255; metadata absent or always encoded to the same auxiliary data")
claim("C145", "proved", ["C145_size", "C145_later", "C145_main_network", "C145_rejected"], "ada only, outputs without datum; addresses that can receive (CIP-19 types 0 to 7)")
claim("C146", "proved", ["C146_copy", "C146_cold"], "keys of 96 bytes with scalars below 2^255; AddChangeIfNeeded is called before Build (C138 for the other order)")
claim("C147", "proved", ["C147_sign", "C147_public", "C147_derive", "C147_root", "C147_results", "C147_verification", "C147_two_keys"], "accesses to arrays and to variables whose address is taken, as in the source; the hash functions are taken to read their input in order and to access otherwise what depends on its length only; int64 locals of the scalar arithmetic are in registers; what a compiler makes of it is not modelled")
claim("C148", "partial", ["C148_replaced_partial", "C148_exchanged_partial", "C148_left_out", "C148_added", "C148_first_unnoticed", "C148_case_unnoticed"], "the code violates the rest: a wrong character among the first 13 can go unnoticed (two counterexamples; the bound is exact), a character left out or added makes NewAddress panic (for all such addresses); addresses with attributes or a checksum below 65536 are not covered")
claim("C149", "proved", ["C149_same_transaction", "C149_conservation", "C149_accepted_fits", "C149_large_change_rejected", "C149_listing", "C149_listing_exactly", "C149_listing_rows", "C149_listing_rows_exactly"], "fee parameters below 2^31 and 2^16, transactions of at most 16384 bytes for the first; a negative amount (which neither source writes) is not compared")
claim("C150", "proved", ["C150_byron_address", "C150_address_bytes", "C150_address_text", "C150_parameter_file", "C150_node_answers", "C150_service_parameters"], "for Blockfrost: fees and size that fit a non-negative int of the machine (the Blockfrost library, which reads them, is not modelled), and a negative least value is not compared; the text of an error may differ")
claim("C151", "proved", ["C151_reported", "C151_build_reported", "C151_fee_zero", "C151_rejected"], "metadata whose encoder returns an error (a panic of a method of the metadata is a panic of the call); the stated amounts of the inputs are those of the ledger and below 2^64 together; a failure of only the first of the two fee passes changes nothing and is not covered")
claim("C152", "proved", ["C152_excluded", "C152_chain"], "inputs are changed by AddInputs only (a user can also assign to the fields of the body); that ids are not used again is a hypothesis, as in C109")
claim("C153", "proved", ["C153_read_back", "C153_read_text", "C153_distinct", "C153_ordinary"], "hash and payload have fewer than 2^63 bytes together; a nil and an empty payload count as the same (omitempty)")
