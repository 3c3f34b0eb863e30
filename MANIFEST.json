{
 "claims": [
  {
   "property": "C01",
   "status": "proved",
   "theorems": [
    "Tezos.C01_from_then_on",
    "Tezos.C01_consensus_signatures_increase",
    "Tezos.C01_write_exception_rolls_back"
   ],
   "note": "The pending review is taken as safe from commands, see C98. Along every history from the factory state in which every watermark write completes or is cut by a power loss the checksum detects. C01_write_exception_rolls_back shows the restriction is needed: a write failing with an exception rolls the watermark back and a block is signed twice. C01_from_then_on: failing writes before the first of the two signatures (that wrote their page or left it) do no harm to the order from there on, without a restart; with restarts see C116."
  },
  {
   "property": "C02",
   "status": "proved",
   "theorems": [
    "Tezos.C02_from_then_on",
    "Tezos.C02_no_tenderbake_double_signing"
   ],
   "note": "Same conditions on flash writes as C01. C02_from_then_on allows failing writes before the first of the two signatures."
  },
  {
   "property": "C03",
   "status": "proved",
   "theorems": [
    "Tezos.C03_from_then_on",
    "Tezos.C03_no_emmy_double_signing"
   ],
   "note": "Same conditions on flash writes as C01. The one pair allowed at one level is a block followed by an endorsement. C03_from_then_on allows failing writes before the first of the two signatures."
  },
  {
   "property": "C04",
   "status": "proved",
   "theorems": [
    "Tezos.C04_from_then_on",
    "Tezos.C04_upgrade_one_way"
   ],
   "note": "Same conditions on flash writes as C01. C04_from_then_on allows failing writes before the Tenderbake signature."
  },
  {
   "property": "C05",
   "status": "proved",
   "theorems": [
    "Tezos.C05_whatever_fails",
    "Tezos.C05_durable_before_signature"
   ],
   "note": "Same conditions on flash writes as C01; the power losses are part of the histories. C05_whatever_fails allows writes that fail with an exception anywhere in the history."
  },
  {
   "property": "C06",
   "status": "partial",
   "theorems": [
    "Tezos.C06_from_then_on_partial",
    "Tezos.C06_reset_protects_emmy_partial",
    "Tezos.C06_tenderbake_not_protected",
    "Tezos.C06_endorsement_at_level"
   ],
   "note": "False of the code for Tenderbake messages (C06_tenderbake_not_protected) and for the Emmy endorsement of the level itself (C06_endorsement_at_level). Proved for Emmy blocks up to the level and endorsements below it, also when writes of the watermark failed before the reset (C06_from_then_on_partial)."
  },
  {
   "property": "C07",
   "status": "proved",
   "theorems": [
    "Tezos.C07_only_overrides_lower"
   ],
   "note": "Same conditions on flash writes as C01."
  },
  {
   "property": "C08",
   "status": "proved",
   "theorems": [
    "Tezos.C08_levels_31_bits"
   ],
   "note": "Along every history, with no condition on flash writes."
  },
  {
   "property": "C09",
   "status": "proved",
   "theorems": [
    "Tezos.C09_only_authorized_key"
   ],
   "note": "Histories of fewer than 2^64 events whose interrupted key writes leave the page unchanged, complete or failing its checksum. Writes failing with an exception are allowed."
  },
  {
   "property": "C10",
   "status": "proved",
   "theorems": [
    "Tezos.C10_deauthorization_effective"
   ],
   "note": "Same conditions as C09."
  },
  {
   "property": "C11",
   "status": "proved",
   "theorems": [
    "Tezos.C11_user_approves"
   ],
   "note": "Every history of both builds, no condition."
  },
  {
   "property": "C12",
   "status": "proved",
   "theorems": [
    "Tezos.C12_other_messages_refused",
    "Tezos.C12_reviews_are_operations"
   ],
   "note": "Refusal of other messages and form of the reviewed ones, in every state."
  },
  {
   "property": "C13",
   "status": "proved",
   "theorems": [
    "Tezos.C13_announced_kind",
    "Tezos.C13_one_kind"
   ],
   "note": "Along every history, same conditions on flash writes as C01; the record is read back directly and after a restart."
  },
  {
   "property": "C14",
   "status": "proved",
   "theorems": [
    "Tezos.C14_fresh_message_is_signed"
   ],
   "note": "From every reachable state, for every way to cut the message into packets. Exchange buffers of 260 bytes; flash writes of the events concerned complete."
  },
  {
   "property": "C15",
   "status": "partial",
   "theorems": [
    "Tezos.C15_chain_id_is_ignored",
    "Tezos.C15_shared_watermark_partial",
    "Tezos.C15_other_chain_is_signed"
   ],
   "note": "False of the code: C15_chain_id_is_ignored for every message, C15_other_chain_is_signed as a history. The partial theorem: of two messages differing in the chain id only at most one is signed."
  },
  {
   "property": "C16",
   "status": "partial",
   "theorems": [
    "Tezos.C16_negation",
    "Tezos.C16_failed_write_then_relaunch_partial",
    "Tezos.C16_next_write_partial"
   ],
   "note": "False of the code: C16_negation gives a history with one failing write after which an eight-writes-old value is read. C16_failed_write_then_relaunch_partial covers a failed write followed by a relaunch; C16_next_write_partial covers any number of failing writes and restarts: the next write that completes, and every restart, make the record read right again. Missing is the read right after a failing write, where the claim is false."
  },
  {
   "property": "C17",
   "status": "proved",
   "theorems": [
    "Tezos.C17_wear_is_single_cell"
   ],
   "note": "Refinement of the page ring to one cell for every number of pages, payload and history with fewer than 2^64 writes."
  },
  {
   "property": "C18",
   "status": "proved",
   "theorems": [
    "Tezos.C18_power_loss_atomic_or_detected"
   ],
   "note": "Torn pages are assumed unchanged, complete or failing their checksum."
  },
  {
   "property": "C19",
   "status": "partial",
   "theorems": [
    "Tezos.C19_interrupted_write_partial",
    "Tezos.C19_negation"
   ],
   "note": "False of the code: C19_negation. The partial theorem covers interruptions that leave every page with a valid checksum."
  },
  {
   "property": "C20",
   "status": "proved",
   "theorems": [
    "Tezos.C20_page_roundtrip",
    "Tezos.C20_single_byte_corruption_detected",
    "Tezos.C20_fresh_page_is_empty"
   ],
   "note": "Round trip, single-byte corruption and the freshly flashed page."
  },
  {
   "property": "C21",
   "status": "proved",
   "theorems": [
    "Tezos.C21_watermark_roundtrip",
    "Tezos.C21_unknown_tag_refuses_emmy"
   ],
   "note": ""
  },
  {
   "property": "C22",
   "status": "proved",
   "theorems": [
    "Tezos.C22_key_roundtrip",
    "Tezos.C22_erased_is_no_key"
   ],
   "note": ""
  },
  {
   "property": "C23",
   "status": "partial",
   "theorems": [
    "Tezos.C23_decoder_accepts",
    "Tezos.C23_decoder_components",
    "Tezos.C23_decoder_inverse",
    "Tezos.C23_constructor_partial",
    "Tezos.C23_constructor_negation"
   ],
   "note": "The decoder part is proved in full. The constructor part is false: C23_constructor_negation shows that every list longer than LEN aborts."
  },
  {
   "property": "C24",
   "status": "proved",
   "theorems": [
    "Tezos.C24_upload_delivers_acknowledged",
    "Tezos.C24_failed_opening_witness"
   ],
   "note": "For histories in which no opening packet was answered with an error; C24_failed_opening_witness shows what happens otherwise."
  },
  {
   "property": "C25",
   "status": "proved",
   "theorems": [
    "Tezos.C25_oversized_refused",
    "Tezos.C25_fitting_accepted"
   ],
   "note": "Both directions: what does not fit is refused, what fits is accepted when the flash works."
  },
  {
   "property": "C26",
   "status": "proved",
   "theorems": [
    "Tezos.C26_sessions_do_not_mix"
   ],
   "note": ""
  },
  {
   "property": "C27",
   "status": "proved",
   "theorems": [
    "Tezos.C27_packet_types"
   ],
   "note": ""
  },
  {
   "property": "C28",
   "status": "proved",
   "theorems": [
    "Tezos.C28_every_apdu_is_answered",
    "Tezos.C28_short",
    "Tezos.C28_wrong_class",
    "Tezos.C28_unknown_instruction",
    "Tezos.C28_known_instruction"
   ],
   "note": "Every state of both builds. The table is the one of constants.rs; docs/APDUSPEC.md lists only eight of its codes."
  },
  {
   "property": "C29",
   "status": "proved",
   "theorems": [
    "Tezos.C29_refused",
    "Tezos.C29_wallet_never_writes_records"
   ],
   "note": "Baking-only instructions are refused by the wallet build and the wallet never writes the four records, along every history."
  },
  {
   "property": "C30",
   "status": "partial",
   "theorems": [
    "Tezos.C30_never_aborts_partial",
    "Tezos.C30_wallet_never_aborts",
    "Tezos.C30_short_fitness_aborts",
    "Tezos.Demo.C30_failed_copy_aborts"
   ],
   "note": "Along every history from the factory, with working hashes and flash writes that complete or are cut by a power loss leaving a whole page, the app stops only by the power loss or on a completed baking upload of a block whose Tenderbake fitness is 5 to 8 bytes; the wallet build never aborts. C30_short_fitness_aborts proves that this block does abort the baking build in every history, so the unrestricted claim is false. C30_failed_copy_aborts shows why failing writes to the upload area are excluded; torn pages are excluded because the app cannot open a record with a bad checksum (C05)."
  },
  {
   "property": "C31",
   "status": "proved",
   "theorems": [
    "Tezos.C31_decode_encode",
    "Tezos.C31_encodings_distinct"
   ],
   "note": "Every kind of operation the app knows. For nonce revelations and denunciations the decoder keeps no fields, so the statement is that their extent is exact."
  },
  {
   "property": "C32",
   "status": "partial",
   "theorems": [
    "Tezos.C32_padding_ignored",
    "Tezos.C32_flag_ignored",
    "Tezos.C32_faithful_partial",
    "Tezos.C32_unknown_partial",
    "Tezos.C32_unknown_tag_dropped"
   ],
   "note": "False of the code as stated: C32_padding_ignored, C32_flag_ignored, C32_unknown_tag_dropped. C32_faithful_partial: the bytes are determined up to those two bytes for every operation whose fields are kept."
  },
  {
   "property": "C33",
   "status": "proved",
   "theorems": [
    "Tezos.C33_value",
    "Tezos.C33_value_signed",
    "Tezos.C33_no_wrap",
    "Tezos.C33_canonical_read",
    "Tezos.C33_five_bytes_refused"
   ],
   "note": "C33_five_bytes_refused: canonical encodings above 28 bits are refused on the 32-bit device."
  },
  {
   "property": "C34",
   "status": "proved",
   "theorems": [
    "Tezos.C34_batch",
    "Tezos.C34_nothing_skipped",
    "Tezos.C34_failure_reported"
   ],
   "note": "Both directions, and failure of a later operation is reported."
  },
  {
   "property": "C35",
   "status": "proved",
   "theorems": [
    "Tezos.C35_fixed_point",
    "Tezos.C35_amount",
    "Tezos.C35_zeros_abort"
   ],
   "note": "C35_zeros_abort records that the formatter itself aborts on a text of zeros only longer than one digit, which no decimal number produces."
  },
  {
   "property": "C36",
   "status": "partial",
   "theorems": [
    "Tezos.C36_pages",
    "Tezos.C36_count_partial",
    "Tezos.C36_count_exact_multiple"
   ],
   "note": "The pages are proved to make up the message. The announced count is right except when the length is an exact multiple of the page size (C36_count_exact_multiple)."
  },
  {
   "property": "C37",
   "status": "proved",
   "theorems": [
    "Tezos.C37_everything_displayed",
    "Tezos.C37_texts_fit",
    "Tezos.C37_approval_after_every_page"
   ],
   "note": "For the navigation code of the Nano S, and on the device with either display along every history in which no signing packet arrives during the review; that the texts are short enough for the page counters is proved. On the Nano S expert mode can jump to the approve screen; such histories are excluded."
  },
  {
   "property": "C38",
   "status": "partial",
   "theorems": [
    "Tezos.C38_announced_partial",
    "Tezos.C38_announced_truncated",
    "Tezos.C38_negation"
   ],
   "note": "False of the code: C38_negation, 51 ballots announce no item. Proved up to 255 items in total."
  },
  {
   "property": "C39",
   "status": "proved",
   "theorems": [
    "Tezos.C39_item_order",
    "Tezos.C39_located"
   ],
   "note": "For batches with at most 255 items."
  },
  {
   "property": "C40",
   "status": "partial",
   "theorems": [
    "Tezos.C40_review_identifies_partial",
    "Tezos.C40_batch_identifies_partial",
    "Tezos.C40_entrypoint_negation",
    "Tezos.C40_entrypoint_negation_encoded",
    "Tezos.C40_delegate_negation",
    "Tezos.C40_inner_signature_negation"
   ],
   "note": "False of the code: the entrypoint of a transfer, the inner signature of an endorsement with slot, and the delegate when the registry gives two accounts one name are not displayed (three negations). Everything else is identified, for single operations and for whole batches. Arguments, scripts and unknown operations are identified by their digest."
  },
  {
   "property": "C41",
   "status": "partial",
   "theorems": [
    "Tezos.C41_visible_partial",
    "Tezos.C41_negation"
   ],
   "note": "False of the code: C41_negation, nonce revelations and denunciations leave no trace in the review. Proved for the other kinds."
  },
  {
   "property": "C42",
   "status": "partial",
   "theorems": [
    "Tezos.C42_approved_is_reviewed_partial",
    "Tezos.C42_user_saw_the_message_partial",
    "Tezos.C42_other_message_shown",
    "Tezos.C42_other_delegation_shown",
    "Tezos.C42_approved_is_reviewed_orderly"
   ],
   "note": "False of the code as stated: C42_other_message_shown (wallet) and C42_other_delegation_shown (baking), signing packets that arrive during the review change what it shows. Proved for histories without signing packets during the review; other commands may arrive. Proved without exception for systems that deliver no command during a review (C42_approved_is_reviewed_orderly). For hosts that wait for their answers it holds in full, on the board (C105)."
  },
  {
   "property": "C43",
   "status": "partial",
   "theorems": [
    "Tezos.C43_requested_key_partial",
    "Tezos.C43_other_key_used",
    "Tezos.C43_requested_key_orderly"
   ],
   "note": "False of the code as stated: C43_other_key_used, a refused signing request that arrives during the review replaces the key. Proved for the generic commands without signing packets during the review, and for the baking commands always. Proved without exception for systems that deliver no command during a review (C43_requested_key_orderly). For hosts that wait for their answers it holds in full, on the board (C105)."
  },
  {
   "property": "C44",
   "status": "proved",
   "theorems": [
    "Tezos.C44_rejection",
    "Tezos.C44_signature_on_approval",
    "Tezos.C44_after_signature",
    "Tezos.C44_one_reply",
    "Tezos.C44_key_from_new_request"
   ],
   "note": "One reply per review, signatures only on approval, form of the rejection, and the key of a later signature comes from a request completed in between."
  },
  {
   "property": "C45",
   "status": "proved",
   "theorems": [
    "Tezos.C45_reply_layout"
   ],
   "note": "Every history of both builds."
  },
  {
   "property": "C46",
   "status": "proved",
   "theorems": [
    "Tezos.C46_queries_change_nothing",
    "Tezos.C46_displays_change_nothing",
    "Tezos.C46_queries_do_not_sign",
    "Tezos.C46_hmac_signs_a_constant",
    "Tezos.C46_hmac_answer"
   ],
   "note": "Queries and displays leave the records, the pending key and the upload unchanged. The HMAC command signs one constant and hands out only an HMAC keyed with its hash."
  },
  {
   "property": "C47",
   "status": "partial",
   "theorems": [
    "Tezos.C47_main_query",
    "Tezos.C47_full_query_partial",
    "Tezos.Demo.C47_partly_set_device_reports_defaults"
   ],
   "note": "Main query proved along every history with the conditions of C01. False of the full query as stated: C47_partly_set_device_reports_defaults, after an interrupted reset it reports the defaults although the main watermark is set. Proved: the three values last set, or the defaults and some record never set with success."
  },
  {
   "property": "C48",
   "status": "proved",
   "theorems": [
    "Tezos.C48_setup_takes_effect",
    "Tezos.C48_reset_takes_effect"
   ],
   "note": "Along every history whose interrupted writes leave the page unchanged, complete or failing its checksum; also after a restart."
  },
  {
   "property": "C49",
   "status": "proved",
   "theorems": [
    "Tezos.C49_signing_keeps_test_and_chain",
    "Tezos.C49_only_setup_and_reset"
   ],
   "note": "Signatures: every state. All other events: along every history with the conditions of C48."
  },
  {
   "property": "C50",
   "status": "proved",
   "theorems": [
    "Tezos.C50_key_changes_by_approval"
   ],
   "note": "Same conditions as C09."
  },
  {
   "property": "C51",
   "status": "partial",
   "theorems": [
    "Tezos.C51_changes_by_approval_or_signature_partial",
    "Tezos.Demo.C51_reset_without_confirmation"
   ],
   "note": "False of the code as stated: C51_reset_without_confirmation. Proved for everything but reset commands."
  },
  {
   "property": "C52",
   "status": "proved",
   "theorems": [
    "Tezos.C52_address_identifies",
    "Tezos.C52_destination_identifies",
    "Tezos.C52_key_address",
    "Tezos.C52_prefixes_distinct",
    "Tezos.C52_address_shown"
   ],
   "note": ""
  },
  {
   "property": "C53",
   "status": "proved",
   "theorems": [
    "Tezos.C53_confirmed_key"
   ],
   "note": "Every history of both builds, whatever arrives during the display."
  },
  {
   "property": "C54",
   "status": "proved",
   "theorems": [
    "Tezos.C54_alias_identifies",
    "Tezos.C54_alias_names",
    "Tezos.C54_chain_id"
   ],
   "note": "Storage, conversion and display."
  },
  {
   "property": "C55",
   "status": "partial",
   "theorems": [
    "Tezos.C55_only_received_bytes_partial",
    "Tezos.C55_stale_bytes_are_used"
   ],
   "note": "False of the code as stated: C55_stale_bytes_are_used, a length byte larger than the bytes received takes in bytes left over from earlier exchanges. Proved for commands whose declared length was received."
  },
  {
   "property": "C56",
   "status": "partial",
   "theorems": [
    "Tezos.C56_name_is_registered",
    "Tezos.C56_registered_is_found",
    "Tezos.C56_lookup",
    "Tezos.C56_name_negation"
   ],
   "note": "The lookup is proved exact. That a name identifies an account is false: C56_name_negation."
  },
  {
   "property": "C57",
   "status": "proved",
   "theorems": [
    "Tezos.C57_operation_items",
    "Tezos.C57_review",
    "Tezos.C57_user_read_the_batch",
    "Tezos.C57_user_read_the_digest"
   ],
   "note": "Texts are specified by how they are read (Spec/Display.lean). Numbers of 2^28 and more are refused by the app, so such a review is not displayed at all (C33). Two registered baker names contain characters that the display replaces by dots. Batches of 255 items and more are excluded (C38)."
  },
  {
   "property": "C58",
   "status": "proved",
   "theorems": [
    "Tezos.C58_authorize",
    "Tezos.C58_deauthorize",
    "Tezos.C58_query",
    "Tezos.C58_setup"
   ],
   "note": "Along every history with the conditions of C09 on interrupted writes; the texts are those of Spec/Display.lean. For the removal, the address shown is of the key that was authorized when the review was opened and still is at the approval."
  },
  {
   "property": "C59",
   "status": "proved",
   "theorems": [
    "Tezos.C59_version",
    "Tezos.C59_public_key",
    "Tezos.C59_address",
    "Tezos.C59_authorized_key",
    "Tezos.C59_reports_the_approved_key"
   ],
   "note": "Every state for single queries; the last part along every history with the conditions of C09."
  },
  {
   "property": "C60",
   "status": "proved",
   "theorems": [
    "Tezos.C60_uploaded_since_restart",
    "Tezos.C60_uploaded",
    "Tezos.C60_nothing_pending"
   ],
   "note": "Along every history whose packets are full and whose upload area is written completely (Good, see Sessions)."
  },
  {
   "property": "C61",
   "status": "proved",
   "theorems": [
    "Tezos.C61_event",
    "Tezos.C61_history"
   ],
   "note": "Every state and history, no assumption on flash or packets. Signing is modelled as a function of curve, path and digest in each environment."
  },
  {
   "property": "C62",
   "status": "proved",
   "theorems": [
    "Tezos.C62_signing"
   ],
   "note": "Along every history with the conditions of C60 and hashes of the right size. The transport package is modelled from its interface; exceptions of the library count as results without success."
  },
  {
   "property": "C63",
   "status": "proved",
   "theorems": [
    "Tezos.C63_path_text"
   ],
   "note": "For every Number function that reads decimal texts as their value."
  },
  {
   "property": "C64",
   "status": "proved",
   "theorems": [
    "Tezos.C64_baker_byte",
    "Tezos.C64_kind"
   ],
   "note": "C64_baker_byte for every message; C64_kind along every history with the conditions of C62."
  },
  {
   "property": "C65",
   "status": "proved",
   "theorems": [
    "Tezos.C65_version",
    "Tezos.C65_address",
    "Tezos.C65_shown_address",
    "Tezos.C65_authorized_key",
    "Tezos.C65_main_watermark",
    "Tezos.C65_all_watermarks"
   ],
   "note": "Every history; for the watermarks from the factory state with sound flash pages, as in C47."
  },
  {
   "property": "C66",
   "status": "proved",
   "theorems": [
    "Tezos.C66_authorize",
    "Tezos.C66_deauthorize",
    "Tezos.C66_query",
    "Tezos.C66_setup",
    "Tezos.C66_reset"
   ],
   "note": "Along every history with the conditions of C58. The levels and chain id of legacySetup are numbers below 2^32."
  },
  {
   "property": "C67",
   "status": "partial",
   "theorems": [
    "Tezos.C67_address_of_key_partial",
    "Tezos.C67_legacy_key_is_not_the_key",
    "Tezos.C67_address_changes_the_key",
    "Tezos.C67_legacy_sign_is_cut",
    "Tezos.C67_sig_hash_partial",
    "Tezos.C67_sig_hash_differs"
   ],
   "note": "False of the code: the legacy key calls return the answer with its length byte as the key and an address computed from it, legacySign returns half of the signature, sig_hash of Tenderbake blocks uses the byte of the earlier protocol, publicKeyToAddress overwrites the first byte of the key (each proved). What holds: the address of a key read correctly, and sig_hash where the bytes agree."
  },
  {
   "property": "C68",
   "status": "partial",
   "theorems": [
    "Tezos.C68_only_paths_partial",
    "Tezos.C68_text_after_m_is_ignored",
    "Tezos.C68_not_refused"
   ],
   "note": "False of the code: text between m and the first slash is ignored, empty components are sent as 0, negative hardened ones as other indices (proved). What holds: texts of digits, apostrophes and slashes after m without empty components are sent only if they are paths."
  },
  {
   "property": "C69",
   "status": "proved",
   "theorems": [
    "Tezos.C69_one_node",
    "Tezos.C69_distinct_nodes"
   ],
   "note": "The calls of the system are parameters."
  },
  {
   "property": "C70",
   "status": "proved",
   "theorems": [
    "Tezos.C70_sizes",
    "Tezos.C70_verifies",
    "Tezos.C70_client"
   ],
   "note": "Under the promises of the system listed in Sys.Sound: sizes, DER form, and that its signatures verify under its points. C70_client along every history with the conditions of C62."
  },
  {
   "property": "C71",
   "status": "partial",
   "theorems": [
    "Tezos.C71_parity_partial",
    "Tezos.C71_parity_lost"
   ],
   "note": "False of the code: it compares the report of the system with the flag of the parity as a whole, so the parity is lost when the system also reports that X exceeds the order (C71_parity_lost). What holds: the case without this report."
  },
  {
   "property": "C72",
   "status": "partial",
   "theorems": [
    "Tezos.C72_curve_code_partial",
    "Tezos.C72_aliases",
    "Tezos.C72_curve448",
    "Tezos.C72_mode_code",
    "Tezos.C72_error_code",
    "Tezos.C72_app_curve"
   ],
   "note": "False of the code: Curve448 is sent with the code of Ed448 (C72_curve448), and ed25519 of the app comes back as the BIP 32 variant (C72_app_curve). What holds: all other curves (the NIST names come back as their equals), modes and errors."
  },
  {
   "property": "C73",
   "status": "proved",
   "theorems": [
    "Tezos.C73_approval_after_every_item",
    "Tezos.C73_reviews_fit"
   ],
   "note": "The engine of flows belongs to the operating system and is taken as described in ZuiX.lean. C73_reviews_fit shows that each review the app opens meets the assumptions of the theorem."
  },
  {
   "property": "C74",
   "status": "partial",
   "theorems": [
    "Tezos.C74_batch_read_partial",
    "Tezos.C74_hidden_proposals"
   ],
   "note": "False of the code for single operations with more than 255 items: 253 proposals are approved unseen (C74_hidden_proposals). What holds: batches in which no single operation has more than 255 items."
  },
  {
   "property": "C75",
   "status": "partial",
   "theorems": [
    "Tezos.C75_walk",
    "Tezos.C75_batch_approvable_partial",
    "Tezos.C75_lost",
    "Tezos.C75_large_amount",
    "Tezos.C75_device",
    "Tezos.C75_others_end",
    "Tezos.C75_large_amount_device"
   ],
   "note": "False of the code for items that fail, such as amounts of 2^28 and more: the flow is left at an index below its first step and no button answers any more (C75_lost, C75_large_amount, C75_large_amount_device). What holds: reviews whose items can all be displayed, also on the device (C75_device)."
  },
  {
   "property": "C76",
   "status": "partial",
   "theorems": [
    "Tezos.C76_walk",
    "Tezos.C76_screens",
    "Tezos.C76_device",
    "Tezos.C76_others_displayed",
    "Tezos.C76_batch_approvable_partial",
    "Tezos.C76_large_amount"
   ],
   "note": "False of the code for items that fail, such as amounts of 2^28 and more: an error is displayed and the review ends with 0x6984 (C76_large_amount). What holds: reviews whose items can all be displayed, on every device state; these include all reviews that do not ask for a signature (C76_others_displayed)."
  },
  {
   "property": "C77",
   "status": "proved",
   "theorems": [
    "Tezos.C77_digest",
    "Tezos.C77_checksum",
    "Tezos.C77_key_hash",
    "Tezos.C77_hmac",
    "Tezos.C77_device",
    "Tezos.C77_address",
    "Tezos.C77_app_address"
   ],
   "note": "The calls are parameters with the promise of their documentation; error codes are left out. C77_device ties the calls to the functions that the device model uses."
  },
  {
   "property": "C78",
   "status": "proved",
   "theorems": [
    "Tezos.C78_command",
    "Tezos.C78_client",
    "Tezos.C78_reproducible"
   ],
   "note": "C78_command on the device in any state, C78_client for the library, C78_reproducible over two histories. That signatures of the same data are the same is part of the hypothesis that they are a function of the system (RFC 6979 and EdDSA)."
  },
  {
   "property": "C79",
   "status": "partial",
   "theorems": [
    "Tezos.C79_small",
    "Tezos.C79_large_partial",
    "Tezos.C79_large_first",
    "Tezos.C79_large_stuck",
    "Tezos.C79_transfer_stuck"
   ],
   "note": "Proved in full for the Nano S (C79_small). False of the code on the Nano X and S+: when the first item can be displayed and a later one cannot, such as an amount of 2^28 and more, no button ever ends the review (C79_large_stuck, and C79_transfer_stuck for an operation). What holds there: reviews whose items can all be displayed (C79_large_partial), and those whose first item fails (C79_large_first)."
  },
  {
   "property": "C80",
   "status": "partial",
   "theorems": [
    "Tezos.C80_replies_fit",
    "Tezos.C80_same_as_app_partial",
    "Tezos.C80_signed_digest_partial",
    "Tezos.C80_same_as_app",
    "Tezos.C80_host_writes_the_review",
    "Tezos.C80_overwritten"
   ],
   "note": "False of the code as stated: a command of 260 bytes that arrives during a review, though refused, makes the review whatever its bytes say, for every layout (C80_host_writes_the_review); C80_overwritten is a history in which a digest of the host is signed. Proved for histories in which the commands that arrive during a review do not reach it (C80_same_as_app_partial, C80_signed_digest_partial), in particular if none arrives (C80_same_as_app); that every reply has at most 134 bytes is proved of all histories (C80_replies_fit). For hosts that wait for their answers it holds in full (C105)."
  },
  {
   "property": "C81",
   "status": "partial",
   "theorems": [
    "Tezos.C81_app_info_partial",
    "Tezos.C81_refused",
    "Tezos.C81_no_flags",
    "Tezos.C81_unknown_format"
   ],
   "note": "False of the code for an app without flags, where the first byte of the status word is taken for them (C81_no_flags), and for other formats, which are returned as a success for an app called err (C81_unknown_format). Proved for all answers in format 1 with at least one byte of flags, and for refusals (C81_refused). The answer of the operating system is a parameter."
  },
  {
   "property": "C82",
   "status": "partial",
   "theorems": [
    "Tezos.C82_described",
    "Tezos.C82_distinct",
    "Tezos.C82_call",
    "Tezos.C82_sign",
    "Tezos.C82_rejected_partial",
    "Tezos.C82_nobody_was_asked"
   ],
   "note": "False of the code in its last sentence: the wallet app answers the calls for the baking app with the status word of a rejection although nobody was asked (C82_nobody_was_asked). Proved: texts and codes (C82_described, C82_distinct, C82_call, C82_sign), and that a rejection given by a button press ended a review, signed nothing and changed nothing (C82_rejected_partial). Texts for transport errors other than status words are not modelled."
  },
  {
   "property": "C83",
   "status": "proved",
   "theorems": [
    "Tezos.C83_guards",
    "Tezos.C83_reply",
    "Tezos.C83_call",
    "Tezos.C83_write",
    "Tezos.C83_wide_exception"
   ],
   "note": "setjmp, longjmp and the stack are a machine (Catch); the C macros of the main loop are not in the repository and taken to work as catch_raw, which copies them. C83_wide_exception shows what an exception outside of the quantifier would do."
  },
  {
   "property": "C84",
   "status": "partial",
   "theorems": [
    "Tezos.C84_batch_signed_partial",
    "Tezos.C84_expression_signed",
    "Tezos.C84_delegation_signed_partial"
   ],
   "note": "False of the code for numbers that are not below 2^28, which cannot be displayed (C76_large_amount, C75_large_amount_device, C79_transfer_stuck), and for batches with more than 255 items (C38_negation). Proved for all other batches that fit into the upload buffer of 8191 bytes (C84_batch_signed_partial), for delegations and revelations by the baking instructions (C84_delegation_signed_partial), and without exception for expressions (C84_expression_signed). Hypotheses: writes to the flash succeed, hashes and signatures are computed."
  },
  {
   "property": "C85",
   "status": "proved",
   "theorems": [
    "Tezos.C85_address",
    "Tezos.C85_authorize",
    "Tezos.C85_deauthorize",
    "Tezos.C85_query",
    "Tezos.C85_setup",
    "Tezos.C85_reset"
   ],
   "note": "The history may contain any commands, buttons and restarts, wrong or not; each write to a record in it happens entirely or not at all, and so does the write made by the request. What an interrupted write does is C47-C51. The hash functions are taken not to fail, and the key has an address (IsAccount)."
  },
  {
   "property": "C86",
   "status": "proved",
   "theorems": [
    "Tezos.C86_above_all_since_level",
    "Tezos.C86_above_all_since_setup"
   ],
   "note": "Asked to sign means that the upload of the message for a baking instruction was completed, whatever came of it. Levels are below 2^31, as the app demands. The write of the watermark for the last request succeeds; earlier writes to records happen entirely or not at all, and writes to the upload page succeed."
  },
  {
   "property": "C87",
   "status": "proved",
   "theorems": [
    "Tezos.C87_answers",
    "Tezos.C87_reasons"
   ],
   "note": "The table is Spec/Answers.lean and does not use the model of the handlers. During the request itself no system call fails and no write is interrupted (Serves); what happens then is in C16, C30, C47-C51. What is in the data of served requests is the matter of C45, C47, C53, C59 and C78, what happens to a review of C42-C44, C58, C84 and C85. Operations of other kinds sent to the baking instructions are refused with 6984 or 6986 (declined), without saying which. The table is of the code; docs/APDUSPEC.md differs, see DESIGN.md."
  },
  {
   "property": "C88",
   "status": "proved",
   "theorems": [
    "Tezos.C88_operation",
    "Tezos.C88_expression",
    "Tezos.C88_delegation",
    "Tezos.C88_consensus",
    "Tezos.C88_address",
    "Tezos.C88_authorize",
    "Tezos.C88_deauthorize",
    "Tezos.C88_query",
    "Tezos.C88_setup",
    "Tezos.C88_reset"
   ],
   "note": "Rests on C84, C85 and C14 for the device and on C63 for paths. What the display cannot show is excluded as in C84. The body that legacySetup returns is left open: it is not the public key (C67). legacySign, which cuts the signature (C67), is left out. The queries without confirmation are C65."
  },
  {
   "property": "C89",
   "status": "proved",
   "theorems": [
    "Tezos.C89_documented",
    "Tezos.C89_records",
    "Tezos.C89_consensus",
    "Tezos.C89_blind_signs_again"
   ],
   "note": "The development build is Devel.lean, a machine around the one of the other builds. Signatures given by a button press on one of its reviews are the matter of C90; C89_blind_signs_again shows that with them the user can sign two endorsements of one level and round."
  },
  {
   "property": "C90",
   "status": "proved",
   "theorems": [
    "Tezos.C90_blind_signature",
    "Tezos.C90_granted",
    "Tezos.C90_rejection",
    "Tezos.C90_hash_failure_swaps_key"
   ],
   "note": "That hashing succeeds is needed: the key is replaced before the message is hashed, so a request whose hashing fails changes the key of the review that stays pending (C90_hash_failure_swaps_key). Rejection is C90_rejection; that the screens determine the hash is blindScreens_injective."
  },
  {
   "property": "C91",
   "status": "partial",
   "theorems": [
    "Tezos.C91_hash",
    "Tezos.C91_exception",
    "Tezos.C91_echo_length",
    "Tezos.C91_echo_partial"
   ],
   "note": "False of the code for texts of less than a line, which stop the app (C91_echo_length), and for exception 0, which comes out as 1 (C91_exception). Texts with zero bytes are shown up to the first one, and for texts of exactly two lines only the opening of the review is proved. That the machine of catch_raw (C83) does as modelled is exceptProgram_runs."
  },
  {
   "property": "C92",
   "status": "partial",
   "theorems": [
    "Tezos.C92_shown_partial",
    "Tezos.C92_cut",
    "Tezos.C92_stale"
   ],
   "note": "False of the code: a request is shown up to its first zero byte (C92_cut), and after what earlier requests left in the buffer (C92_stale). Proved for short requests without zero bytes on an empty buffer (C92_shown_partial)."
  },
  {
   "property": "C93",
   "status": "proved",
   "theorems": [
    "Tezos.C93_first_value",
    "Tezos.C93_factory",
    "Tezos.C93_as_opened_at_start",
    "Tezos.C93_device_records"
   ],
   "note": "For every sequence of uses of a global (C93_first_value) and every history of a record (C93_as_opened_at_start); the simpler records of the device model give the same results (C93_device_records); the initial contents byte by byte (C93_factory). That memory is cleared when the app starts is assumed."
  },
  {
   "property": "C94",
   "status": "proved",
   "theorems": [
    "Tezos.C94_lost",
    "Tezos.C94_nothing_more",
    "Tezos.C94_answers"
   ],
   "note": "For one event from any state (C94_lost, C94_nothing_more); with the table of C87 for requests after any history (C94_answers), where writes to flash succeed. The error screen is to be closed by the user, see C79. The development build is not covered: there a failing hash swaps the key of a pending review (C90_hash_failure_swaps_key)."
  },
  {
   "property": "C95",
   "status": "proved",
   "theorems": [
    "Tezos.C95_even",
    "Tezos.C95_endurance"
   ],
   "note": "For every record of eight slots and every history (C95_even), with the endurance of a record as a corollary (C95_endurance). Wear is counted as changes of the contents: an interrupted write that left its slot as it was does not count. Writes that fail with an exception are excluded, see C16. A slot has 64 bytes; whether the hardware erases more at once is outside the code."
  },
  {
   "property": "C96",
   "status": "proved",
   "theorems": [
    "Tezos.C96_builds",
    "Tezos.C96_lookup",
    "Tezos.C96_shown",
    "Tezos.C96_by_address",
    "Tezos.C96_checksum_ignored",
    "Tezos.C96_two_names"
   ],
   "note": "For every file (C96_builds, C96_lookup, C96_by_address) and for the one in the repository (C96_shown). Entries are taken as pairs of a name and an address: the JSON syntax of the file is not modelled. The checksums of the addresses are not looked at by the build (C96_checksum_ignored), so the last clause assumes that they are right; one account of the file has two names (C96_two_names)."
  },
  {
   "property": "C97",
   "status": "proved",
   "theorems": [
    "Tezos.C97_read",
    "Tezos.C97_replied",
    "Tezos.C97_builds"
   ],
   "note": "Reading of the file (C97_read), the reply (C97_replied) and the converse (C97_builds). Which names Rust lets a constant have is a parameter. The Makefile reads the same file with make, which is not modelled."
  },
  {
   "property": "C98",
   "status": "partial",
   "theorems": [
    "Tezos.C98_digests_increase_partial",
    "Tezos.C98_unasked",
    "Tezos.C98_double_signed"
   ],
   "note": "False of the code as stated: C98_double_signed is a history in which the digests of two Tenderbake blocks of one level and round are signed with one key; the second digest is sent, in a refused command, while a delegation is being reviewed, which the user then approves. Proved if the commands that arrive during a review do not reach it (C98_digests_increase_partial), assuming that no other message collides with those signed; and for all histories for the signatures given without asking the user (C98_unasked). The counterexample is for one layout of reviews; that any layout can be written to is C80_host_writes_the_review. For hosts that wait for their answers it holds in full (C105)."
  },
  {
   "property": "C99",
   "status": "proved",
   "theorems": [
    "Tezos.C99_clean",
    "Tezos.C99_error_small",
    "Tezos.C99_menu_small",
    "Tezos.C99_error_large",
    "Tezos.C99_menu_large",
    "Tezos.C99_review_small",
    "Tezos.C99_review_large",
    "Tezos.C99_hidden_byte_aborts"
   ],
   "note": "Every text of a review is clean (C99_clean); so drawing with the buffers gives what drawing from the texts gives (C99_review_small, C99_review_large), and the other screens show their own texts (C99_error_small, C99_error_large, C99_menu_small, C99_menu_large). Of the releases; in the development build a text of the host with a zero byte can make the app abort (C99_hidden_byte_aborts)."
  },
  {
   "property": "C100",
   "status": "proved",
   "theorems": [
    "Tezos.C100_menu_small",
    "Tezos.C100_menu_large",
    "Tezos.C100_only_by_user",
    "Tezos.C100_switch",
    "Tezos.C100_position",
    "Tezos.C100_deliberate",
    "Tezos.C100_same_device"
   ],
   "note": "The texts of the menu for every sequence of buttons and other screens (C100_menu_small, C100_menu_large); what changes the mode (C100_only_by_user) and how the user does (C100_switch), deliberately (C100_deliberate); the entry shown is where the buttons lead since the menu came up (C100_position); with the menu, the device has the histories of the device model without it (C100_same_device). The engines that move through menus and flows belong to the system and are taken as described at the top of Menu.lean."
  },
  {
   "property": "C101",
   "status": "proved",
   "theorems": [
    "Tezos.C101_increasing",
    "Tezos.C101_one_of_two"
   ],
   "note": "From C62 and C01 (C101_increasing, C101_one_of_two), with their assumptions: writes of the watermark and of the upload buffer do not fail with an exception, and nobody else sends APDUs during a call of the client."
  },
  {
   "property": "C102",
   "status": "proved",
   "theorems": [
    "Tezos.C102_tested",
    "Tezos.C102_shown",
    "Tezos.C102_sample",
    "Tezos.C102_surplus"
   ],
   "note": "What a test tests (C102_tested, an equivalence) and what the user of the device then reads (C102_sample for the tests of the repository, C102_shown for any review). C102_surplus and the examples show what the tests do not see. The display is computed with the 32-bit usize of the device; on the 64-bit computers where the tests run it is the same if the whole test passes, see C108, which also has the comparison of the parsed fields with their JSON descriptions."
  },
  {
   "property": "C103",
   "status": "proved",
   "theorems": [
    "Tezos.C103_fuzz"
   ],
   "note": "C103_fuzz. The other fuzz target, for whole commands, does not compile (it calls a function that does not exist); what it looks for is C30."
  },
  {
   "property": "C104",
   "status": "proved",
   "theorems": [
    "Tezos.C104_session",
    "Tezos.C104_presentable",
    "Tezos.C104_unreadable"
   ],
   "note": "C104_session, with the events and outputs of the device written out in PlayedAll; which reviews can be displayed: C104_presentable. C104_unreadable: without that hypothesis it fails; a test gets a signature for a transfer to which a device with the larger display never answers. The mock of the system (keys, signatures, hashes, flash) stays the parameter Env."
  },
  {
   "property": "C105",
   "status": "proved",
   "theorems": [
    "Tezos.C105_no_command_in_review",
    "Tezos.C105_same_history",
    "Tezos.C105_approved_is_reviewed",
    "Tezos.C105_requested_key",
    "Tezos.C105_digests_increase",
    "Tezos.C105_client_waits",
    "Tezos.C105_baker"
   ],
   "note": "Waiting is said of what passes between host and device only (Spec.Waits). C105_no_command_in_review and C105_same_history; from them C42, C43, C98 and C101 for the board (C105_approved_is_reviewed, C105_requested_key, C105_digests_increase, C105_baker); programs of the client: C105_client_waits. A second program that connects while the review of a first one is pending does not wait in this sense."
  },
  {
   "property": "C106",
   "status": "proved",
   "theorems": [
    "Tezos.C106_sends",
    "Tezos.C106_baking_flow"
   ],
   "note": "The helper: C106_sends, for all commands and without assumptions on the device. The test: C106_baking_flow, an equivalence; keys, signatures and hashes work and writes succeed, as with the mock of the system. Operations are excluded since the mock of the display approves them. The test reads its samples from a file and does not verify the signatures; nor does the model."
  },
  {
   "property": "C107",
   "status": "proved",
   "theorems": [
    "Tezos.C107_one_text",
    "Tezos.C107_one_name",
    "Tezos.C107_tests",
    "Tezos.C107_two_names",
    "Tezos.C107_currency",
    "Tezos.C107_currency_limit",
    "Tezos.C107_generated"
   ],
   "note": "Which tests pass: C107_tests, an equivalence that speaks of the protocol only; one text: C107_one_text, C107_one_name, C107_two_names; amounts: C107_currency, C107_currency_limit; the generators: C107_generated. What the node forges is specified (Spec.Forges). Of JavaScript the numbers that are not negative are modelled, with rounding to 53 binary digits."
  },
  {
   "property": "C108",
   "status": "proved",
   "theorems": [
    "Tezos.C108_sample",
    "Tezos.C108_numbers",
    "Tezos.C108_near_numbers",
    "Tezos.C108_pins",
    "Tezos.C108_blind",
    "Tezos.C108_surplus_proposals",
    "Tezos.C108_generated",
    "Tezos.C108_shown",
    "Tezos.C108_display_alone"
   ],
   "note": "Which samples pass: C108_sample, an equivalence that speaks of the protocol only; number texts: C108_numbers, C108_near_numbers; what a description determines: C108_pins, and what it does not: C108_blind, C108_surplus_proposals and the examples; the generators: C108_generated; the device: C108_shown, C108_display_alone. Reading a decimal text as f64 is modelled with rounding to 53 binary digits to nearest even, without overflow and subnormal numbers beyond what the comparison needs."
  },
  {
   "property": "C109",
   "status": "proved",
   "theorems": [
    "Tezos.C109_constant",
    "Tezos.C109_text",
    "Tezos.C109_bakers",
    "Tezos.C109_known_bakers",
    "Tezos.C109_methods",
    "Tezos.C109_record",
    "Tezos.C109_global",
    "Tezos.C109_apart_needed",
    "Tezos.C109_mock_differs"
   ],
   "note": "Constants and texts: C109_constant, C109_text; bakers: C109_bakers for any table, C109_known_bakers for the one of the app; methods: C109_methods; records: C109_record; globals: C109_global; what is needed: C109_apart_needed, C109_mock_differs. The functions pic and nvm_write of the system are modelled after their documentation; what the linker leaves in the image is specified (Spec.HasRef, Spec.HasTable, Spec.HasMethods), and Pic.Demo has an image with the whole table. The rest of the model takes constants, tables and methods as the source has them."
  },
  {
   "property": "C110",
   "status": "proved",
   "theorems": [
    "Tezos.C110_cursor",
    "Tezos.C110_batch",
    "Tezos.C110_stops_large",
    "Tezos.C110_tests",
    "Tezos.C110_counted"
   ],
   "note": "The position is specified in Spec.place. C110_cursor for every review; C110_batch for calls that sign batches; the tests: C110_tests, C110_counted; C110_stops_large counts the screens of the larger display. On the larger display a press of right stands for all presses that go through the parts of one text (this is part of the system)."
  },
  {
   "property": "C111",
   "status": "proved",
   "theorems": [
    "Tezos.C111_session",
    "Tezos.C111_from_level",
    "Tezos.C111_endorsement",
    "Tezos.C111_block",
    "Tezos.C111_tests",
    "Tezos.C111_round_zero",
    "Tezos.C111_tests_miss"
   ],
   "note": "The verdicts are specified in Spec.verdicts. C111_session for every sequence of calls; C111_from_level with the level that was set; the builders: C111_endorsement, C111_block; the tests: C111_tests; what they miss: C111_round_zero, C111_tests_miss. Keys, hashes and signatures are a parameter; writes succeed during the calls. The verification of the signatures in the tests (with libraries) is not modelled."
  },
  {
   "property": "C112",
   "status": "proved",
   "theorems": [
    "Tezos.C112_registers",
    "Tezos.C112_machine",
    "Tezos.C112_tells",
    "Tezos.C112_same"
   ],
   "note": "The machine is specified in Spec/Machine.lean; what is seen of an event is Moment.sight. The registers: C112_registers; the answers: C112_machine; the queries: C112_tells; two devices: C112_same. Which answers there are is the table of C87. Serves says that flash writes complete and that keys, hashes and signatures can be computed; what happens otherwise is in C30, C94 and others. Whether a review that needs one text displayed comes about (askedIf) depends on the display and is observed by the machine, not predicted."
  },
  {
   "property": "C113",
   "status": "proved",
   "theorems": [
    "Tezos.C113_forgets",
    "Tezos.C113_pasts",
    "Tezos.C113_wallet"
   ],
   "note": "What is seen is Dev.seen: the output of every event and the state of the display after it. C113_forgets for any two states, C113_pasts for any two pasts, C113_wallet for the wallet. SameEvents: the same events, keys and hashes, and the same writes succeed or fail; what a power failure leaves of a write in the upload area may differ, what a failing write that the app survives leaves is the same. That RAM is fresh after a start is part of the model (Dev.relaunch)."
  },
  {
   "property": "C114",
   "status": "proved",
   "theorems": [
    "Tezos.C114_unnamed",
    "Tezos.C114_in_use"
   ],
   "note": "What a request names is Event.Names; the worlds are compared by Env.OtherKeys, in which public keys and signatures may change from event to event where no request names the key. Good: writes to the upload area succeed; the key record is written or a failure is detected. The two worlds: C114_unnamed; that the keys in use were named: C114_in_use. Keys and signatures are parameters of the model, so that the operating system derives a key from nothing but its path and curve is assumed."
  },
  {
   "property": "C115",
   "status": "proved",
   "theorems": [
    "Tezos.C115_reported",
    "Tezos.C115_pasts",
    "Tezos.C115_setup"
   ],
   "note": "The records of the test level and of the chain are replaced by any others that pass their checksums (Dev.tc). What is compared is the answer (with the signature and the end of the app) and the display at every event; of the answers to 0x0B only whether there is one. Conditions on later events: a write of the test level leaves a page that passes its checksum, a write of the chain succeeds (a reset writes the chain only where there is none, so a failing write could be told). C115_setup: setups approved on any device. C115_pasts: any two pasts, with C113."
  },
  {
   "property": "C116",
   "status": "proved",
   "theorems": [
    "Tezos.C116_told",
    "Tezos.C116_restart_protects",
    "Tezos.C116_once",
    "Tezos.C116_baker"
   ],
   "note": "What the host is told: C116_told, for every state and event. The order of the signatures: C116_restart_protects; that none is given twice: C116_once. For calls of the client: C116_baker. That the restart is needed is C01_write_exception_rolls_back; Demo.recovered is the same history with the restart. Restarts asks for a restart after 0x6400 and 0x9001 to the events of Event.MayWrite, also where these words have other causes. A write that leaves another page with a right checksum is excluded (Detected)."
  }
 ]
}