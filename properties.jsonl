{"id": "C01", "title": "Consensus signatures only ever move forward", "statement": "Between two watermark resets/setups, the consensus messages (blocks, preendorsements, endorsements) the baking app signs form a strictly increasing sequence for the order: Emmy before Tenderbake, then level, then round, then block < preendorsement < endorsement. It does not matter which key, chain or upload commands were used in between, whether the user approved or rejected reviews, or whether the device was power-cycled, even in the middle of a flash write.", "quantifier": "every finite history of APDU exchanges, user actions, relaunches and power losses (with torn flash writes that the page checksum detects) that contains no reset/setup of the watermark, from every reachable state", "why_tests_cant": "the claim is about pairs of signatures arbitrarily far apart in an unbounded history with crashes in it; a test exercises one short history at a time", "anchors": ["rust/app/src/handlers/baking.rs: Baking::baker_sign, handle_endorsement, handle_blockdata", "rust/app/src/handlers/hwm.rs: HWM, WaterMark", "rust/app/src/parser/baking.rs: BlockData, EndorsementData"]}
{"id": "C02", "title": "No Tenderbake double signing", "statement": "Between two watermark resets/setups the device never releases two signatures over Tenderbake blocks with the same level and round, nor over two endorsements with the same level and round, nor over two preendorsements with the same level and round (whatever their contents or chain).", "quantifier": "every pair of signatures in every such history", "why_tests_cant": "equivocation needs two related requests separated by arbitrary other traffic; absence over all histories cannot be sampled", "anchors": ["rust/app/src/handlers/baking.rs: handle_endorsement, handle_blockdata", "rust/app/src/parser/baking/tenderbake.rs: TenderbakeEndorsement::validate_with_watermark"]}
{"id": "C03", "title": "No Emmy double signing", "statement": "Between two watermark resets/setups the device never releases two signatures over Emmy blocks at the same level, nor over two Emmy endorsements at the same level.", "quantifier": "every pair of signatures in every such history", "why_tests_cant": "same as C02", "anchors": ["rust/app/src/parser/baking/emmy.rs: EmmyEndorsement::validate_with_watermark", "rust/app/src/parser/baking.rs: BlockData::validate_with_watermark"]}
{"id": "C04", "title": "The protocol upgrade is one way", "statement": "Once a Tenderbake message has been signed, no Emmy block or endorsement is signed until the watermark is reset or set up again.", "quantifier": "every history", "why_tests_cant": "quantifies over all later requests", "anchors": ["rust/app/src/parser/baking.rs: validate_with_watermark", "rust/app/src/parser/baking/emmy.rs: validate_with_watermark"]}
{"id": "C05", "title": "Watermark is durable before a consensus signature leaves the device", "statement": "Whenever a reply contains a consensus signature, the flash contents at that moment are such that a relaunch reads back a watermark that rejects that message and every message below it; and if power is lost at any point of handling, either no signature was released or the watermark is already durable.", "quantifier": "every state, request and power-loss point during the handling of the request", "why_tests_cant": "tests do not cut power at each flash write; the ordering claim covers every crash point", "anchors": ["rust/app/src/handlers/baking.rs: handle_endorsement 228-244, handle_blockdata 270-286", "rust/bolos/src/flash_slot.rs: Wear"]}
{"id": "C06", "title": "Resetting the watermark to a level protects all levels up to it", "statement": "After the watermark has been reset to level N, no block with level <= N and no endorsement with level < N is signed, for either consensus family, until the next reset/setup. (The code only ensures this for Emmy messages; see the negation.)", "quantifier": "every N and every later history", "why_tests_cant": "universally quantified over later histories and over N", "anchors": ["rust/app/src/handlers/hwm.rs: HWM::reset, WaterMark::reset", "rust/app/src/parser/baking.rs: validate_with_watermark", "rust/app/src/handlers/legacy/hwm.rs: LegacyResetHWM"]}
{"id": "C07", "title": "Only a reset or an approved setup can lower the watermark", "statement": "No other command, user action, relaunch or power loss ever lowers the main watermark (in the order of C01) as seen by later signing requests.", "quantifier": "every reachable state and every event other than a reset APDU or an approved setup", "why_tests_cant": "ranges over every command and state", "anchors": ["rust/app/src/handlers/hwm.rs: HWM", "rust/app/src/handlers/legacy/hwm.rs", "rust/app/src/handlers/legacy/baking/setup.rs: accept"]}
{"id": "C08", "title": "Signed consensus levels are valid block levels", "statement": "Every consensus message that gets signed has a level below 2^31.", "quantifier": "every history and message", "why_tests_cant": "all 2^32 levels times all states", "anchors": ["rust/app/src/handlers/hwm.rs: WaterMark::is_valid_blocklevel"]}
{"id": "C09", "title": "Consensus signatures use only the authorized key", "statement": "Every consensus signature is made with exactly the curve and derivation path held in flash, and those are the ones of the latest user-approved authorize or setup request that has not been followed by an approved de-authorization.", "quantifier": "every history", "why_tests_cant": "relates a signature to an approval arbitrarily far in the past", "anchors": ["rust/app/src/handlers/baking.rs: Baking::check_with_stored, store_baking_key, sign", "rust/app/src/handlers/baking/authorization.rs", "rust/app/src/handlers/legacy/baking/setup.rs"]}
{"id": "C10", "title": "De-authorization is effective", "statement": "After the user approves a de-authorization, no baking signature of any kind is released until the user approves a new authorize or setup request.", "quantifier": "every later history", "why_tests_cant": "unbounded later history", "anchors": ["rust/app/src/handlers/baking/authorization.rs: DeAuthorizeUI::accept", "rust/app/src/handlers/baking.rs: Baking::sign"]}
{"id": "C11", "title": "Nothing but consensus messages is signed without the user's approval", "statement": "In both builds every signature released, other than baking-build signatures over messages whose first byte is 0x01, 0x02, 0x11, 0x12 or 0x13, is released by a user approval of a review that was opened by a signing request.", "quantifier": "every history in both builds", "why_tests_cant": "all commands, states and orders", "anchors": ["rust/app/src/handlers/signing.rs: Sign", "rust/app/src/handlers/baking.rs: Baking", "rust/app/src/dispatcher.rs: apdu_dispatch"]}
{"id": "C12", "title": "The generic signing commands never sign consensus messages", "statement": "The user-confirmed signing command (both builds) and the legacy wallet signing commands only ever open a review for messages whose first byte is 0x03 (operation) or 0x05 (Michelson); any other first byte is refused, so they cannot be used to bypass the watermark.", "quantifier": "every message, key and state", "why_tests_cant": "all messages", "anchors": ["rust/app/src/handlers/signing.rs: Sign::start_sign 78-114", "rust/app/src/parser.rs: Preemble"]}
{"id": "C13", "title": "The kind announced by the first byte is the kind that is checked", "statement": "A consensus message is signed only if its body really is of the kind its first byte announces (block of that protocol family, endorsement, preendorsement), and the level and round recorded in the watermark are those at the protocol-defined byte offsets of the signed bytes.", "quantifier": "every message", "why_tests_cant": "all byte strings", "anchors": ["rust/app/src/handlers/baking.rs: handle_endorsement 204-226, handle_blockdata 259-268", "rust/app/src/parser/baking.rs", "rust/app/src/parser/baking/tenderbake.rs", "rust/app/src/parser/baking/emmy.rs"]}
{"id": "C14", "title": "A fresh higher consensus message is always signed", "statement": "If the authorized key is stored, the watermark is initialised, the message is a well-formed consensus message with a valid level that is above the watermark, and the crypto and flash primitives succeed, then the request is answered with the signature and status 0x9000.", "quantifier": "every watermark, message and authorized key", "why_tests_cant": "liveness over all inputs; complements the safety claims so that a device refusing everything would not satisfy the specification", "anchors": ["rust/app/src/handlers/baking.rs: baker_sign"]}
{"id": "C15", "title": "Consensus messages are only signed for the configured chain", "statement": "A consensus message is signed only if its chain id is compatible with the chain id configured at setup. (False of this code: the chain id is parsed and never compared. Proved instead: the watermark is shared, so the order of C01 holds across chains.)", "quantifier": "every configured chain and message", "why_tests_cant": "all pairs of chain ids", "anchors": ["rust/app/src/handlers/hwm.rs: ChainID", "rust/app/src/parser/baking.rs: BlockData::validate_with_watermark"]}
{"id": "C16", "title": "A failed flash write never rolls the watermark back", "statement": "If writing the watermark to flash reports an error and the app keeps running, a later read yields the previous or the attempted value, never an older one. (False of this code: the page index is advanced before the write, so the eight-writes-old page is read.)", "quantifier": "every flash history and failing write", "why_tests_cant": "needs failure injection at every write of every history", "anchors": ["rust/bolos/src/flash_slot.rs: Wear::write 255-263"]}
{"id": "C17", "title": "Wear-levelled storage behaves like a single cell", "statement": "Through any number of writes and relaunches, a read returns exactly the 52 bytes of the last completed write, and 'uninitialized' if there was none, for any number of pages.", "quantifier": "every sequence of writes and relaunches, every number of pages >= 1, every payload", "why_tests_cant": "unbounded write histories; wrap-around of the page index happens at every multiple of the page count", "anchors": ["rust/bolos/src/flash_slot.rs: Wear::{new,align,write,read}, Slot"]}
{"id": "C18", "title": "Power loss during a flash write is atomic or detected", "statement": "If power is lost during a write and the interrupted page either is unchanged, is completely written or fails its checksum, then on relaunch the store either refuses to open or reads back the old or the new value, nothing else.", "quantifier": "every history, every interrupted write, every torn page content", "why_tests_cant": "arbitrary torn contents at arbitrary points", "anchors": ["rust/bolos/src/flash_slot.rs: Wear::new, align, Slot::from_storage"]}
{"id": "C19", "title": "An interrupted write does not brick the store", "statement": "After an interrupted write the multi-page store still opens and yields the last completed value. (False of this code: one page with a bad checksum makes opening fail although the other pages are intact.)", "quantifier": "every history and interrupted write", "why_tests_cant": "arbitrary torn contents", "anchors": ["rust/bolos/src/flash_slot.rs: Wear::new 212-217", "rust/app/src/handlers/hwm.rs: MAIN lazy_static"]}
{"id": "C20", "title": "Flash page codec", "statement": "Encoding a counter and payload into a 64-byte page and decoding it returns the same counter and payload; a page with any single altered byte is rejected; the page image a freshly flashed app carries (zero counter, zero payload, matching checksum) decodes as an empty slot with counter zero.", "quantifier": "every counter < 2^64, payload and altered byte", "why_tests_cant": "2^64 counters, all payloads, all corruptions", "anchors": ["rust/bolos/src/flash_slot.rs: Slot::from_storage, as_storage, crc32, zeroed"]}
{"id": "C21", "title": "Watermark codec", "statement": "Storing a watermark and reading it back gives the same watermark for every family, level, round and flag combination; decoding is total and maps unknown tags to the watermark that refuses every Emmy message.", "quantifier": "every watermark and every 52-byte payload", "why_tests_cant": "2^64 and more combinations", "anchors": ["rust/app/src/handlers/hwm.rs: From<WaterMark> for [u8;52], From<&[u8;52]> for WaterMark"]}
{"id": "C22", "title": "Authorized key codec", "statement": "Storing a curve and path of 1..10 components and reading it back yields the same curve and path; an erased slot yields 'no key'.", "quantifier": "every curve and path", "why_tests_cant": "all paths", "anchors": ["rust/app/src/handlers/baking.rs: Bip32PathAndCurve"]}
{"id": "C23", "title": "Derivation path decoding", "statement": "The path decoder accepts exactly: one length byte n with 1 <= n <= LEN followed by exactly 4n bytes, yields the big-endian components in order, is inverse to serialization, and never aborts. The constructor from a component list accepts exactly 1..LEN components. (The constructor part is false: LEN+1 components abort.)", "quantifier": "every byte string and every LEN", "why_tests_cant": "all byte strings of all lengths", "anchors": ["rust/bolos-common/src/bip32.rs: BIP32Path::{read,new,serialize}"]}
{"id": "C24", "title": "Chunked upload delivers exactly the acknowledged chunks", "statement": "The parameters and message handed to a signing command are exactly: p2 and the payload of the opening packet, and the concatenation, in order, of the payloads of the later packets acknowledged with 0x9000 plus the closing packet's payload, regardless of when the data spills from RAM to flash, provided no opening packet was answered with an error.", "quantifier": "every sequence of packets", "why_tests_cant": "all chunkings of all messages, in particular those straddling the RAM/flash boundary", "anchors": ["rust/app/src/utils/buffer_upload.rs: Uploader::upload", "rust/bolos/src/swapping_buffer.rs: SwappingBuffer"]}
{"id": "C25", "title": "Oversized uploads are refused, never truncated", "statement": "An upload whose total size (including one byte for p2) exceeds 8191 bytes makes the offending packet fail; no signing request ever sees a truncated packet.", "quantifier": "every sequence of packets", "why_tests_cant": "all chunk sizes near the boundary", "anchors": ["rust/bolos/src/swapping_buffer.rs: write 102-136", "rust/app/src/handlers/mod.rs: BUFFER"]}
{"id": "C26", "title": "Upload sessions of different commands do not mix", "statement": "A continuation packet is accepted only for the command family that opened the current upload (the wallet-style signing commands form one family, the baker signing commands the other); once the other family opens an upload, continuation packets of the first are refused without effect, and a continuation without an opened upload is refused.", "quantifier": "every interleaving of packets of several commands", "why_tests_cant": "interleavings", "anchors": ["rust/app/src/handlers/lock.rs: Lock", "rust/app/src/utils/buffer_upload.rs"]}
{"id": "C27", "title": "Packet type decoding", "statement": "The packet types are exactly the documented ones; no packet is treated both as an opening packet and as a closing packet, and any other p1 is refused with 0x6B00 without changing state.", "quantifier": "every p1 byte", "why_tests_cant": "finite table, but the effect on state ranges over all states", "anchors": ["rust/app/src/handlers/utils.rs: PacketTypes, ZPacketType, LegacyPacketType"]}
{"id": "C28", "title": "Every APDU gets a well-formed answer or a review", "statement": "For every input buffer and length the app either answers with data followed by a two-byte status word from the table of the app (constants.rs), or opens a review, or aborts; inputs shorter than 5 bytes get 0x6700, a wrong class gets 0x6E00, an unknown instruction gets 0x6986, and none of these change state.", "quantifier": "every buffer and rx length, both builds", "why_tests_cant": "all byte buffers", "anchors": ["rust/app/src/dispatcher.rs: handle_apdu, apdu_dispatch", "rust/app/src/utils/apdu_wrapper.rs", "rust/app/src/constants.rs: ApduError"]}
{"id": "C29", "title": "Build separation", "statement": "The wallet build refuses every baking instruction with 0x6986 and never touches the watermark or the authorized key; the baking build refuses the wallet-only instruction.", "quantifier": "every APDU and state", "why_tests_cant": "all instructions and payloads", "anchors": ["rust/app/src/dispatcher.rs: apdu_dispatch 111-196"]}
{"id": "C30", "title": "No APDU can crash the app", "statement": "No APDU or user action makes the app abort. (False of the baking build: a Tenderbake block with a too short fitness aborts it. Proved for the wallet build's command handling, and for the baking build outside that case.)", "quantifier": "every reachable state and every APDU", "why_tests_cant": "all inputs in all states", "anchors": ["rust/app/src/parser/baking/tenderbake.rs: TenderbakeFitness::from_bytes 136", "rust/app/src/utils/buffer_upload.rs: upload", "rust/app/src/dispatcher.rs"]}
{"id": "C31", "title": "Operation decoding inverts the protocol encoding", "statement": "For each supported operation kind, decoding the protocol's binary encoding of an operation followed by any bytes yields exactly that operation's fields and leaves exactly the following bytes.", "quantifier": "every operation of every supported kind and every suffix", "why_tests_cant": "all field values", "anchors": ["rust/app/src/parser/operations.rs", "rust/app/src/parser/operations/operation_type.rs", "rust/app/src/parser/operations/*.rs"]}
{"id": "C32", "title": "Operation decoding is faithful to the signed bytes", "statement": "If decoding succeeds, the decoded fields determine the consumed bytes: re-encoding them gives the consumed prefix. (False for the contract padding byte and for boolean bytes other than 0x00/0xFF, which are ignored; proved up to those.)", "quantifier": "every byte string", "why_tests_cant": "all byte strings", "anchors": ["rust/app/src/parser/operations.rs: ContractID::from_bytes 312-327", "rust/app/src/parser.rs: boolean 218-222"]}
{"id": "C33", "title": "Numbers shown are the numbers signed", "statement": "When the variable-length number decoder returns a value, it equals the mathematical value of the encoding; it returns nothing rather than a wrapped value when the number does not fit; and every canonical encoding of up to 28 bits (4 bytes) is accepted on the 32-bit device.", "quantifier": "every number encoding and every register width", "why_tests_cant": "all encodings of all lengths", "anchors": ["rust/app/src/parser.rs: Zarith::from_bytes, read_as 94-134"]}
{"id": "C34", "title": "A batch is split into its operations completely and in order", "statement": "For a message that is the concatenation of encoded operations, iterating yields exactly those operations in that order and then stops; if any iteration fails the review reports an error.", "quantifier": "every batch of every length", "why_tests_cant": "all batch lengths and mixtures", "anchors": ["rust/app/src/parser/operations.rs: EncodedOperations"]}
{"id": "C35", "title": "Amount formatting is exact", "statement": "Amounts and fees are displayed as the exact decimal expansion with six decimals: reading the displayed string back as a decimal number times 10^6 gives the amount, with no superfluous leading zero.", "quantifier": "every amount that fits the device's machine word", "why_tests_cant": "2^32 or 2^64 values", "anchors": ["rust/app/src/handlers/utils.rs: intstr_to_fpstr_inplace 240-335"]}
{"id": "C36", "title": "Paging a message loses nothing", "statement": "The pages of a displayed message, put together, are the message, and the page count announced is the number of pages. (False for the count when the message length is an exact multiple of the page size: one page too many is announced, and asking for it fails.)", "quantifier": "every message, every screen size, every page index", "why_tests_cant": "all messages and sizes", "anchors": ["rust/app/src/handlers/utils.rs: handle_ui_message 200-219"]}
{"id": "C37", "title": "Approval is reachable only past every page", "statement": "From opening a review, the approve action can only be triggered after every item announced by the review has been displayed: page by page on the Nano S in normal (non-expert) mode, whole on the Nano X and S+ in any mode.", "quantifier": "every review content and every button sequence", "why_tests_cant": "all button sequences of all lengths", "anchors": ["rust/zemu/src/ui_toolkit.rs: ZUI", "rust/zemu/src/ui_toolkit/backends/nanos.rs"]}
{"id": "C38", "title": "Every item of the message is announced to the reviewer", "statement": "The number of items announced for an operation review is one more than the total number of items of all its operations. (False: the count is truncated to 8 bits, so a batch with 255 items announces none and the first screen is the approve screen. Proved when the total is below 255.)", "quantifier": "every batch", "why_tests_cant": "requires unusual long batches; sizes near 256 multiples", "anchors": ["rust/app/src/handlers/signing.rs: SignUI::num_items 203-243", "rust/app/src/handlers/signing.rs: find_op_with_item 155-200"]}
{"id": "C39", "title": "Item indices map one to one onto operation fields", "statement": "Item 0 of an operation review is the branch; the following items are, in order, all items of the first operation, then all items of the second, and so on, each exactly once.", "quantifier": "every batch with fewer than 256 items and every index", "why_tests_cant": "all batches", "anchors": ["rust/app/src/handlers/signing.rs: find_op_with_item, render_item"]}
{"id": "C40", "title": "The reviewed fields identify the operation", "statement": "The items shown for an operation determine the fields that control money: two transfers whose items are all equal have the same source, destination, amount, fee, gas limit, storage limit, counter and Michelson argument; likewise for delegations, reveals, originations, ballots. (False for the transfer entrypoint, which is never shown.)", "quantifier": "every pair of operations of one kind", "why_tests_cant": "all pairs", "anchors": ["rust/app/src/parser/operations/transfer.rs: render_item", "rust/app/src/parser/operations/delegation.rs", "rust/app/src/parser/operations/origination.rs", "rust/app/src/parser/operations/reveal.rs", "rust/app/src/parser/operations/ballot.rs"]}
{"id": "C41", "title": "Every signed operation is visible in the review", "statement": "No operation in the signed bytes is left out of the review. (False: double-baking/double-endorsement/nonce-revelation operations contribute no screens, and in the baking build only the first operation is shown. Proved for the other kinds.)", "quantifier": "every batch", "why_tests_cant": "all batches", "anchors": ["rust/app/src/parser/operations/operation_type.rs: ui_items 255-270", "rust/app/src/handlers/baking.rs: handle_delegation 290-329"]}
{"id": "C42", "title": "What is approved is what was reviewed", "statement": "When the user approves a signing review, the released signature is over the digest of exactly the message whose items were rendered during the review. (False when further APDUs are processed while the review is pending; proved for histories without APDUs in between.)", "quantifier": "every history", "why_tests_cant": "interleavings of APDUs and user actions", "anchors": ["rust/app/src/handlers/signing.rs: SignUI", "rust/app/src/utils/buffer_upload.rs: UploaderOutput::drop 81-94"]}
{"id": "C43", "title": "The approved signature uses the requested key", "statement": "When the user approves a signing review, the signature is made with the curve and path of the request that opened the review. (False when a later, even failing, signing request is processed while the review is pending; proved without APDUs in between.)", "quantifier": "every history", "why_tests_cant": "interleavings", "anchors": ["rust/app/src/handlers/signing.rs: start_sign 78-114, accept 318-347"]}
{"id": "C44", "title": "One approval, one signature", "statement": "A review yields at most one reply, and a signing review yields a signature only on approval: rejection answers 0x6986 with no data, and after a signature or a rejection the request's key is forgotten so that it cannot be used again.", "quantifier": "every history", "why_tests_cant": "histories", "anchors": ["rust/app/src/handlers/signing.rs: accept, reject, cleanup_globals", "rust/zemu/src/ui_toolkit.rs: approve, reject"]}
{"id": "C45", "title": "Reply layout of signing commands", "statement": "The commands documented to return the hash answer with the 32-byte digest of the uploaded message followed by the signature; the others answer with the signature only.", "quantifier": "every message, key and command", "why_tests_cant": "all messages", "anchors": ["rust/app/src/handlers/legacy/signing.rs", "rust/app/src/handlers/signing.rs: accept", "rust/app/src/handlers/baking.rs: handle_endorsement"]}
{"id": "C46", "title": "Queries have no effect", "statement": "Version, git hash, public key, watermark queries, authorized-key queries and HMAC requests change neither the watermarks, the chain id, the authorized key nor the pending signing key, and release no signature.", "quantifier": "every state and request", "why_tests_cant": "all states", "anchors": ["rust/app/src/handlers/version.rs", "rust/app/src/handlers/legacy/version.rs", "rust/app/src/handlers/public_key.rs", "rust/app/src/handlers/legacy/hwm.rs", "rust/app/src/handlers/baking/queryauth.rs", "rust/app/src/handlers/baking/hmac.rs"]}
{"id": "C47", "title": "Watermark queries report the stored values", "statement": "The main watermark query returns the level of the last watermark written by reset, setup or signing; the full query returns main level, test level and chain id; on a never-initialised device the documented defaults are returned.", "quantifier": "every history", "why_tests_cant": "histories", "anchors": ["rust/app/src/handlers/legacy/hwm.rs", "rust/app/src/handlers/hwm.rs: hwm, all_hwm"]}
{"id": "C48", "title": "Setup and reset take full effect or report an error", "statement": "After a setup approval answered with 0x9000, the authorized key, both watermarks and the chain id are exactly the reviewed ones; after a reset answered with 0x9000 both watermarks are at the requested level.", "quantifier": "every request and prior state", "why_tests_cant": "all states and values", "anchors": ["rust/app/src/handlers/legacy/baking/setup.rs: accept 200-236", "rust/app/src/handlers/hwm.rs: reset"]}
{"id": "C49", "title": "The test-chain watermark is only set by setup and reset", "statement": "Signing never changes the test watermark or the chain id.", "quantifier": "every state and message", "why_tests_cant": "all states", "anchors": ["rust/app/src/handlers/baking.rs", "rust/app/src/handlers/hwm.rs: write_test"]}
{"id": "C50", "title": "Authorization changes require the user's approval", "statement": "The authorized key changes only when the user approves an authorize, de-authorize or setup review.", "quantifier": "every history", "why_tests_cant": "histories", "anchors": ["rust/app/src/handlers/baking/authorization.rs", "rust/app/src/handlers/legacy/baking/setup.rs", "rust/app/src/handlers/legacy/baking.rs"]}
{"id": "C51", "title": "Watermark changes require approval or a signature", "statement": "The watermark changes only through an approved setup or through signing a higher message. (False: the reset command lowers it with no confirmation, which lets the host obtain two signatures for one slot. Proved for all commands except reset.)", "quantifier": "every history", "why_tests_cant": "histories", "anchors": ["rust/app/src/handlers/legacy/hwm.rs: LegacyResetHWM 32-55"]}
{"id": "C52", "title": "Displayed addresses identify keys", "statement": "Two different tagged key hashes are never displayed as the same address: the encoded address determines curve tag and hash.", "quantifier": "every pair of key hashes", "why_tests_cant": "2^160 hashes", "anchors": ["rust/app/src/handlers/public_key.rs: Addr 145-252", "rust/app/src/parser/operations.rs: ContractID::base58"]}
{"id": "C53", "title": "Address confirmation returns the confirmed key", "statement": "When the user approves an address display, the reply contains the public key of the requested path and curve, and the address shown is the one derived from that key.", "quantifier": "every path and curve", "why_tests_cant": "all paths", "anchors": ["rust/app/src/handlers/public_key.rs: GetAddress::handle, AddrUI"]}
{"id": "C54", "title": "Chain id codec and alias", "statement": "Chain ids survive storage and conversion; 0 means any chain and 0x7A06A770 mainnet, every other value is shown by its own identifier.", "quantifier": "every 32-bit chain id", "why_tests_cant": "2^32 values", "anchors": ["rust/app/src/handlers/hwm.rs: ChainID 317-413"]}
{"id": "C55", "title": "Command data is exactly what the host sent", "statement": "The data bytes a command acts on are bytes received in that APDU. (False: the declared data length is checked against the 260-byte buffer and not against the number of received bytes, so a declared length larger than what was received makes the command act on bytes left over from earlier exchanges; proved when the declared length does not exceed the received bytes.)", "quantifier": "every buffer content, every received length and every declared length", "why_tests_cant": "a test harness passes fresh buffers; the claim is about leftovers of arbitrary earlier exchanges", "anchors": ["rust/app/src/utils/apdu_wrapper.rs: ApduBufferRead::new 57-69, payload 95-103"]}
{"id": "C56", "title": "Baker names shown for a delegate are the registry's", "statement": "A delegate is shown by a name only if the registry gives that name to exactly that account, every registered account is found, and a name identifies one account. (The last part is false: two accounts are registered under one name, and are displayed alike.)", "quantifier": "every 20-byte hash and address prefix, every table sorted by prefix and hash", "why_tests_cant": "2^160 accounts; the search depends on the order of the whole table", "anchors": ["rust/app-derive/src/unroll.rs: baker_lookup 135-168", "rust/app/src/parser/operations/delegation.rs: render_item"]}
{"id": "C57", "title": "Each label of a review is followed by the value it names", "statement": "The review of a batch of operations consists of the items its operations call for, in order, each under its title: the fee under Fee, the gas limit under Gas Limit, the source under Source, and so on; every text reads as the value in the signed bytes. When such a batch is signed, the user had read all of them on the display (all those of the first operation, for the baking commands), provided the host sent no signing packet during the review, and expert mode was off or the device is a Nano X or S+ (where it does not act on reviews). Michelson data is read as its digest.", "quantifier": "every branch, every list of valid operations, every unknown operation after them, every history of events", "why_tests_cant": "the claim relates arbitrary signed bytes to the characters on the display over all button sequences", "anchors": ["rust/app/src/parser/operations/*.rs: render_item", "rust/app/src/handlers/signing.rs: SignUI", "rust/zemu/src/ui_toolkit.rs 193-360"]}
{"id": "C58", "title": "Managing the authorized key does what the user was shown", "statement": "An approved authorization, removal, query or setup review was opened by the last request that opened one, and the curve, path, chain id and levels are the ones in its data. The user was shown the kind of request and the address of the key concerned (for setup also the chain and both levels). If it is answered with success, exactly this key (or none) is authorized and these levels and chain are in force, also after a restart, and the reply is the public key or path concerned.", "quantifier": "every history of events, every request", "why_tests_cant": "the claim relates request bytes, characters shown over a whole button sequence, and records read back after arbitrary restarts", "anchors": ["rust/app/src/handlers/baking/authorization.rs", "rust/app/src/handlers/legacy/baking/setup.rs", "rust/app/src/handlers/legacy/baking.rs", "rust/app/src/handlers/baking/queryauth.rs"]}
{"id": "C59", "title": "Queries answer with exactly what was asked for", "statement": "Version, commit, public key, address and authorized key queries answer at once, change nothing, and return exactly the version, the key of the curve and path named, its address, or the path (and curve) of the authorized key; they are refused when the request names no key or none is authorized. The authorized key reported is the one of the last approved change, also across restarts.", "quantifier": "every state, every parameter and data bytes, every history", "why_tests_cant": "all states, all data bytes and histories", "anchors": ["rust/app/src/handlers/version.rs", "rust/app/src/handlers/public_key.rs", "rust/app/src/handlers/baking/queryauth.rs", "rust/app/src/handlers/legacy/baking.rs"]}
{"id": "C60", "title": "Nothing survives a restart that could be signed", "statement": "A signature is always of a message that was uploaded in one session of packets since the app was last started; after a restart the buttons answer nothing until a new request has opened a review.", "quantifier": "every history with any number of restarts", "why_tests_cant": "histories of any length with restarts at every point", "anchors": ["rust/app/src/handlers/mod.rs: BUFFER", "rust/app/src/utils/buffer_upload.rs: Uploader", "rust/zemu/src/ui_toolkit.rs"]}
{"id": "C61", "title": "The private keys sign nothing but what is handed out", "statement": "Over every history the app uses the private keys for nothing but the signatures it hands out and the one constant of the HMAC command: with any signing function that knows only these, all replies, screens and records are the same. So refused requests, rejected reviews and queries neither make nor leak a signature.", "quantifier": "every state, every history, every replacement of the signing function", "why_tests_cant": "a non-interference claim over all pairs of signing functions", "anchors": ["rust/app/src/handlers/signing.rs: Sign::sign", "rust/app/src/handlers/baking.rs: Baking::sign", "rust/app/src/handlers/baking/hmac.rs", "all handlers"]}
{"id": "C62", "title": "The client library returns exactly the signature the device handed out", "statement": "If a signing call of the JavaScript library (signOperation, signMichelson, signBaker, legacySignWithHash) returns success, the device handed out during the call exactly one signature, of the given message with the byte of its kind in front, by the key of the given curve and path, and the call returns the hash of the message and this signature. If it returns anything else, no signature was handed out during the call.", "quantifier": "every history of the device before and after the call, every message of any length, path, curve and user behaviour", "why_tests_cant": "library and device are tested against each other only on recorded messages", "anchors": ["js/src/index.ts: signSendChunk, signOperation, signMichelson, signBaker, legacySignWithHash", "rust/app/src/utils/buffer_upload.rs: Uploader", "rust/app/src/handlers/signing.rs", "rust/app/src/handlers/baking.rs"]}
{"id": "C63", "title": "A path written as text reaches the device as the path it denotes", "statement": "A text m/a/b or m/a/b/c/d with decimal numbers below 2^31, each with or without the hardening mark, is sent as exactly this path; texts of this form with another number of components or larger numbers are refused.", "quantifier": "every path text", "why_tests_cant": "the set of path texts is unbounded", "anchors": ["js/src/helper.ts: serializePath", "rust/bolos-common/src/bip32.rs: BIP32Path::read"]}
{"id": "C64", "title": "The client library sends blocks and endorsements as what they are", "statement": "A block or endorsement given to signBaker without its first byte is sent with the byte that makes it the message of the protocol it is. If signBaker returns success for a message given as a block or endorsement, the message signed is a block or, respectively, an endorsement of the protocol.", "quantifier": "every message of any length, every history of the device", "why_tests_cant": "blocks and endorsements are sets of arbitrary length byte strings; the byte is chosen from one position inside them", "anchors": ["js/src/index.ts: signBaker 318-378", "rust/app/src/parser/baking.rs", "rust/app/src/handlers/baking.rs"]}
{"id": "C65", "title": "The queries of the client library return what the device holds", "statement": "If getVersion, getAddressAndPubKey, showAddressAndPubKey, queryAuthKeyWithCurve, legacyGetHighWatermark or legacyGetAllWatermark returns success, it returns the version of the app, the key and address of the given curve and path (confirmed by the user if shown), the authorized key, or the levels last set.", "quantifier": "every history of the device before and after the call, every path and curve", "why_tests_cant": "the claim composes client, device and flash over histories of any length", "anchors": ["js/src/index.ts 50-119, 211-244, 452-530", "js/src/common.ts: getVersion", "rust/app/src/handlers/public_key.rs", "rust/app/src/handlers/legacy/*.rs"]}
{"id": "C66", "title": "The managing calls of the client library do what they are given", "statement": "If authorizeBaking, deauthorizeBaking, queryAuthKeyWithCurve(true) or legacySetup returns success, the user approved during the call the review of exactly the account, levels and chain given, and they are in force afterwards, also after a restart. If legacyResetHighWatermark returns success for a level, both watermarks are at this level and the authorized key is unchanged.", "quantifier": "every history of the device before and after the call, every path, curve, level and chain id", "why_tests_cant": "the claim relates arguments of the client to characters shown and records read back after a restart", "anchors": ["js/src/index.ts 211-244, 481-494, 532-555", "rust/app/src/handlers/baking/authorization.rs", "rust/app/src/handlers/legacy/baking/setup.rs"]}
{"id": "C67", "title": "The legacy calls of the client library return keys, addresses, signatures and hashes as their names say", "statement": "legacyGetPubKey, legacyPromptPubKey and legacySetup return the public key and its address, legacySign returns the signature, sig_hash computes the hash that is signed, publicKeyToAddress gives the address of a key and leaves the key alone.", "quantifier": "every history of the device, every path, curve, message and key", "why_tests_cant": "the claim composes client and device over histories and all key bytes", "anchors": ["js/src/index.ts 426-449, 532-555, 573-654, 702-746"]}
{"id": "C68", "title": "The client library refuses texts that are not derivation paths", "statement": "A text is sent as a path only if it consists of m and components after slashes, each a decimal number with or without the hardening mark.", "quantifier": "every text", "why_tests_cant": "the set of texts is unbounded", "anchors": ["js/src/helper.ts: serializePath"]}
{"id": "C69", "title": "Every account has one key of its own from the seed", "statement": "The public key and the signatures of a curve and a path come from one node of the seed, requested with the mode of the curve (SLIP-10 for ed25519, BIP 32 for the others), the curve and exactly this path; nothing else of the seed influences them. Different curves or paths use different nodes.", "quantifier": "every curve, path, seed and data to sign", "why_tests_cant": "needs all pairs of seeds that agree on one node; the calls of the system are not available to tests", "anchors": ["rust/app/src/crypto.rs: SecretKey::new", "rust/bolos-impl/src/crypto/ecfp256.rs: generate_into", "rust/bolos-impl/src/crypto.rs"]}
{"id": "C70", "title": "Signatures verify under the public key of the same account", "statement": "A signature returned for a curve and a path, by the app or through the client library, verifies under the public key returned for this curve and path at any other time, once the mark of the parity is taken off its first byte. Keys have 33 or 65 bytes, signatures 64 or at most 72.", "quantifier": "every curve, path, message, history of the device and system that keeps its promises", "why_tests_cant": "a property of all keys and messages that combines two commands with the system", "anchors": ["rust/app/src/crypto.rs: SecretKey::sign", "rust/app/src/handlers/public_key.rs: new_key_into", "rust/bolos-impl/src/crypto/ecfp256.rs", "js/src/index.ts"]}
{"id": "C71", "title": "The lowest bit of a signature tells the parity of its point", "statement": "On the curves of ECDSA the first byte of a signature is 0x31 if the Y of its point was odd and 0x30 otherwise.", "quantifier": "every key, message and answer of the system", "why_tests_cant": "the case in which the system reports more than the parity does not occur in tests", "anchors": ["rust/bolos-impl/src/crypto/ecfp256.rs: sign, cx_ecdsa_sign"]}
{"id": "C72", "title": "Codes of curves, modes and errors come back as what they were", "statement": "A curve, a mode of derivation and an error of the system are the same after being turned into their code and back.", "quantifier": "every curve, mode and 32-bit code", "why_tests_cant": "the codes of errors are too many to try; the curves outside the app are not used in tests", "anchors": ["rust/bolos-impl/src/crypto.rs 79-236", "rust/bolos-impl/src/errors/exceptionsS.rs", "rust/app/src/crypto.rs 119-144"]}
{"id": "C73", "title": "On the Nano X and S+ a review cannot be approved before every item was displayed", "statement": "Whatever buttons are pressed after a review is opened: if pressing both buttons approves it, every item it announces has been on the display with its title and its whole text, and there is nothing to show after them. This holds for each review the app opens, in expert mode too.", "quantifier": "every review of the app, every upload, every sequence of buttons", "why_tests_cant": "button sequences and reviews are unbounded; the screens differ between device models", "anchors": ["rust/zemu/src/ui_toolkit.rs", "rust/zemu/src/ui_toolkit/backends/nanox.rs", "rust/zemu/src/ui_toolkit/backends/nanosplus.rs", "rust/app/refactor/view_x.c"]}
{"id": "C74", "title": "On the Nano X and S+ the user has read all of a batch when it is approved", "statement": "When the review of a batch of valid operations is approved, the user has read every item the batch must show, each under its title and saying what it must; a batch with more items than can be announced cannot be approved.", "quantifier": "every batch of valid operations with an unknown tail, every sequence of buttons", "why_tests_cant": "batches with hundreds of items are needed to see the counters wrap", "anchors": ["rust/app/src/handlers/signing.rs", "rust/app/src/parser/operations/proposals.rs: ui_items", "rust/zemu/src/ui_toolkit/backends/nanox.rs"]}
{"id": "C75", "title": "On the Nano X and S+ every review can be read to its end and approved", "statement": "From the title of a review of at most 255 items the right button shows the items one after the other, then the approval, then the rejection; from the approval the left button shows them in the opposite order down to the title. On the device nothing but the display changes meanwhile and nothing is answered, and at the approval and the rejection both buttons act.", "quantifier": "every review, every batch of valid operations", "why_tests_cant": "reviews of every length are needed, including those with an item that fails", "anchors": ["rust/zemu/src/ui_toolkit/backends/nanox.rs 59-112", "rust/app/refactor/view_x.c 76-160", "rust/zemu/src/ui_toolkit.rs"]}
{"id": "C76", "title": "On the Nano S every review can be read to its end, approved and rejected", "statement": "When a command has brought a review to the display, the right button shows the pages of its items one after the other, then the approval, then the rejection; meanwhile nothing but the display changes and nothing is answered. From the approval the left button shows the pages in the opposite order.", "quantifier": "every history, every review, every batch of valid operations", "why_tests_cant": "the page count is wrong for texts that fill their last page; only a proof over all texts shows that the app never makes one", "anchors": ["rust/zemu/src/ui_toolkit.rs 106-318", "rust/zemu/src/ui_toolkit/backends/nanos.rs", "rust/app/src/utils.rs", "rust/app/src/handlers"]}
{"id": "C77", "title": "Every hash is of exactly the intended bytes", "statement": "If the hash and HMAC calls of the operating system give, for a context that was initialized and then fed, the function of the bytes fed to it (and nothing is promised for other contexts), then every digest of the app is the function of its whole input, the checksum of base58 texts is the first four bytes of the double SHA-256 of all pieces, the hash of a public key is BLAKE2b-160 of its compressed form (2 or 3 by the parity of Y, then X; the 32 bytes for ed25519), and the HMAC is of its key and input. So an address is the base58 text of prefix, key hash and checksum.", "quantifier": "all systems keeping this promise, all memory contents, pieces, curves, keys and inputs", "why_tests_cant": "The contexts live in memory of the operating system; unit tests use another implementation, and only for fixed inputs.", "anchors": ["rust/bolos-impl/src/hash.rs", "rust/bolos-impl/src/hash/blake2b.rs", "rust/bolos-impl/src/hmac/sha256.rs", "rust/app/src/handlers/utils.rs", "rust/app/src/crypto.rs"]}
{"id": "C78", "title": "Nonces can be made again", "statement": "The HMAC command of the baking app answers exactly the HMAC of the sent message under the SHA-512 hash of the signature of one constant with the named key, at once and without other effects, and is refused if it names no key. Two calls of legacyHMAC with the same curve, path and message that succeed, at any times, on any devices with the same keys, return the same bytes.", "quantifier": "all devices, states, histories, paths, curves and messages", "why_tests_cant": "A baker that cannot make a nonce again after a restart loses its reward; that no state of the device enters the answer is a statement about all histories.", "anchors": ["rust/app/src/handlers/baking/hmac.rs", "rust/app/src/handlers/legacy/hmac.rs", "js/src/index.ts"]}
{"id": "C79", "title": "A review can always be ended without approving it", "statement": "While a review is pending, there are always buttons to press that end it without approving it: the last of these presses, and none before it, answers the computer with a refusal (0x6986, or 0x6984 after an error), no signature is given out, the stored key and watermarks are as before, no review is pending any more, and the app keeps running.", "quantifier": "for all builds, all histories of APDUs, buttons, restarts and power losses, all pending reviews (also ones whose message the computer has replaced in memory meanwhile), and on the larger display all buttons pressed since the review was opened", "why_tests_cant": "A user who cannot refuse can only cut the power; that a way out exists from every position of every review is a statement about all reachable states, and that none exists is one about all button sequences.", "anchors": ["rust/zemu/src/ui_toolkit.rs", "rust/zemu/src/ui_toolkit/backends/nanos.rs", "rust/zemu/src/ui_toolkit/backends/nanox.rs", "rust/app/refactor/view_s.c", "rust/app/refactor/view_x.c"]}
{"id": "C80", "title": "Commands that arrive during a review do not change it", "statement": "The pending review is kept in the buffer in which commands arrive and replies are written. Whatever arrives while it is pending, the review stays what it was when it was opened, every reply fits beside it, and the replies and signatures are those of an app that keeps reviews apart from the buffer; in particular every signature is of the digest of its message.", "quantifier": "for all builds, all ways of laying out a review in at most 126 bytes, all contents of memory at the start, all histories of commands of any length, buttons and restarts", "why_tests_cant": "Unit tests do not share one buffer between transport and review; what is safe depends on the length of every command and of every reply.", "anchors": ["rust/zemu/src/ui_toolkit/backends/nanos.rs", "rust/zemu/src/ui_toolkit/backends/nanox.rs", "rust/zemu/src/ui_toolkit.rs", "rust/app/src/dispatcher.rs", "rust/app/c/main.c"]}
{"id": "C81", "title": "The client's account of the running app is the operating system's", "statement": "getAppInfo returns the name, version and flags of the running app as the operating system reports them: the flags for recovery mode, signed MCU code, onboarding and a validated PIN are the bits 0, 1, 2 and 7 of their first byte. What cannot be read, because the answer is in another format, has no flags or is a refusal, is returned as an error.", "quantifier": "for all names, versions and flags, and all answers of the operating system", "why_tests_cant": "A host decides by these flags whether the device is unlocked and by the name whether to send commands; offsets depend on two lengths in the answer, and a test has one answer.", "anchors": ["js/src/index.ts 162-213", "js/src/common.ts"]}
{"id": "C82", "title": "What the client says about a call is what happened on the device", "statement": "Every answer of the device has a text in the client which says what it means, and different answers have different texts. The code a call returns is the status word of an answer of the device during that call, or 0xffff if nothing could be sent, and a call returns fields besides it only if the device answered with a code the call accepts. If the text is that the transaction was rejected, then a user was asked and refused, and nothing was signed or changed.", "quantifier": "for all builds, all device histories, calls, paths, messages, and all behaviour of JavaScript's number parsing and hashes", "why_tests_cant": "Status words are made in several dozen places of the app, in handlers, in reviews and in the dispatcher; a test of the client answers with constants.", "anchors": ["js/src/common.ts 68-145", "js/src/index.ts", "rust/app/src/constants.rs", "rust/app/src/dispatcher.rs", "rust/app/src/handlers"]}
{"id": "C83", "title": "An exception of the operating system ends the guarded call and nothing else", "statement": "However guarded calls are nested, an exception ends everything up to the nearest guard around it, the code after this guard runs with what was changed until then, and the guards further out stay in force. An exception with no guard around it comes to the main loop, which replies with its code and 0x6400. In particular a write to flash is made at most once, never beyond the memory it is meant for, and the app learns whether it threw.", "quantifier": "for all programs built of system calls and guards, all system calls, and all exceptions of the operating system, which have 16 bits and are not 0", "why_tests_cant": "It depends on how setjmp, longjmp and a linked list of contexts on the stack work together; under test, exceptions are not caught at all.", "anchors": ["rust/bolos-impl/src/errors.rs", "rust/bolos-impl/src/nvm.rs", "rust/bolos-impl/src/crypto.rs 244-289", "rust/app/c/main.c 121-172"]}
{"id": "C84", "title": "What is asked for properly is signed once the user agrees", "statement": "Whatever was done with the device before, if a key is named by a valid path and curve and a message is uploaded for it in packets of any sizes, then every packet is acknowledged, the message is brought to the display, pressing the right button shows all items the message must be reviewed by, each saying what it must, and then pressing both buttons is answered with the signature of the digest of this message by this key. This holds for batches of valid operations and Michelson expressions with the general signing instructions, and for delegations and revelations with the baking ones if the key is authorized.", "quantifier": "for both displays, all builds, all histories of APDUs, buttons and restarts that end with the app running, all keys, all valid operations and expressions, all ways of cutting the message into packets", "why_tests_cant": "That nothing the host or user did before can keep a proper request from being served is a statement about all histories; the other properties would hold of an app that refuses everything.", "anchors": ["rust/app/src/handlers/signing.rs", "rust/app/src/handlers/baking.rs", "rust/app/src/dispatcher.rs", "rust/zemu/src/ui_toolkit.rs", "rust/zemu/src/ui_toolkit/backends"]}
{"id": "C85", "title": "What is asked for properly about keys is done once the user agrees", "statement": "Whatever was done with the device before, if no write to its records was interrupted, a request to confirm an address, to authorize a key for baking, to remove or show the authorization, or to set up baking shows all it must, and then pressing both buttons is answered with success and the public key, address, or path concerned. From then on, also after a restart, the key is the authorized one (or there is none), and after a setup the queries report the levels and chain id asked for. A request to reset the watermarks is answered with success and both watermarks are the requested level.", "quantifier": "for both displays, all histories of APDUs, buttons and restarts that end with the app running and in which writes to records happened entirely or not at all, all keys, levels and chain ids", "why_tests_cant": "That nothing the host or user did before can keep a proper request from being served is a statement about all histories; the other properties would hold of an app that refuses everything.", "anchors": ["rust/app/src/handlers/baking/authorization.rs", "rust/app/src/handlers/legacy/baking/setup.rs", "rust/app/src/handlers/legacy/baking.rs", "rust/app/src/handlers/baking/queryauth.rs", "rust/app/src/handlers/hwm.rs", "rust/app/src/handlers/legacy/hwm.rs", "rust/app/src/handlers/public_key.rs"]}
{"id": "C86", "title": "A baker who only ever moves forward is never refused", "statement": "Once the main watermark was set by a reset or a setup that was answered with success, and no matter what was done with the device since (signing, refused requests, interrupted uploads, other commands, reviews, button presses, restarts, loss of power), a block or endorsement above the level set and above every consensus message the device was since asked to sign with the baking instructions is signed at once, without asking the user, with the authorized key, provided no watermark was reset or set up in between. After a setup the authorized key is the one of the setup unless the user approved a change of it.", "quantifier": "for all histories of APDUs, buttons and restarts in which writes to records happened entirely or not at all, all messages, keys, levels, and ways of cutting messages into packets", "why_tests_cant": "The baker loses its reward whenever the device refuses; that nothing lower, malformed, foreign or interrupted can raise the watermark or close the way is a statement about all histories.", "anchors": ["rust/app/src/handlers/baking.rs", "rust/app/src/handlers/hwm.rs", "rust/app/src/handlers/legacy/hwm.rs", "rust/app/src/handlers/legacy/baking/setup.rs", "rust/app/src/utils/buffer_upload.rs", "rust/app/src/handlers/parser_common.rs"]}
{"id": "C87", "title": "Every request is answered as a short table says", "statement": "How the app answers a well-formed request is determined by its build, the authorized key, the item last signed and the message being uploaded, by a table of one line per instruction: whether it is served, whether a message is signed at once, whether the user is asked, or with which status word it is refused and for which reason. Nothing else of the history matters. A refused request changes neither the records nor the screen nor the pending review. Conversely, a signature is given at once, an error word is given, and the app stops only where the table says so; the error words are 6400, 6700, 6984, 6985, 6986, 6B00 and 9001.", "quantifier": "for both builds and displays, all histories of APDUs, buttons and restarts in which the flash worked, all 256 instructions, all parameters and data", "why_tests_cant": "The reasons of refusal are spread over some thirty functions, each with its own checks in its own order; a test sees one request in one state, and cannot tell that no leftover of an earlier request changes the answer.", "anchors": ["rust/app/src/dispatcher.rs", "rust/app/src/handlers/signing.rs", "rust/app/src/handlers/baking.rs", "rust/app/src/handlers/public_key.rs", "rust/app/src/handlers/hwm.rs", "rust/app/src/handlers/legacy", "rust/app/src/utils/buffer_upload.rs", "rust/app/src/constants.rs", "docs/APDUSPEC.md"]}
{"id": "C88", "title": "What the device grants arrives at the caller of the client", "statement": "A call of the JavaScript client for which the device has what it needs returns success with the right result. For a path with two or four components below 2^31 and a batch of operations (the display can show it and it fits into the upload buffer), a Michelson expression, or a delegation by the authorized key: if the user reads on with the right button and presses both buttons, all that must be shown was read and the call returns the digest and the signature of this message by this key. For a block or endorsement above the watermark it does so without asking. The calls that show an address, authorize a key, remove the authorization, query it with confirmation, set up or reset the watermarks return success after the approval, with the key, address or path they are for, and the change is made.", "quantifier": "all apps, displays, histories, paths, curves, messages, cuts into packets as the client makes them, and hash and signature functions", "why_tests_cant": "The client and the device are in different languages and tested apart; a test of both runs a handful of messages on an emulator, and cannot tell that no message length, path or earlier request makes the client cut, encode or read something that the device then refuses.", "anchors": ["js/src/index.ts", "js/src/helper.ts", "js/src/common.ts", "rust/app/src/handlers/signing.rs", "rust/app/src/handlers/baking.rs", "rust/app/src/handlers/public_key.rs", "rust/app/src/handlers/hwm.rs", "rust/app/src/utils/buffer_upload.rs"]}
{"id": "C89", "title": "The development build adds to the app and takes nothing away", "statement": "To a host that only uses documented instructions, an app built with the development feature answers exactly as one built without it, at every event. A request with one of the additional instructions, and a button pressed on a review opened by one, never change the watermarks, the chain or the authorized key, and no such request is answered with a signature. So also in the development build the consensus messages signed on request only move forward between resets.", "quantifier": "for both builds and displays, all histories of APDUs, buttons, restarts and losses of power, with additional instructions at any place for the last two sentences", "why_tests_cant": "A leftover debugging instruction that touches shared state (upload buffer, review, key) could change the outcome of any later request; a test of the instruction alone does not see this, and the tests are compiled with the feature on.", "anchors": ["rust/app/src/dispatcher.rs 90-93", "rust/app/src/dispatcher.rs 128-140", "rust/app/src/dispatcher.rs 190-191", "rust/app/src/handlers/dev", "rust/app/src/handlers/mod.rs 44-55"]}
{"id": "C90", "title": "Blind signing signs what was uploaded, shown and approved", "statement": "In the development build, a signature given while one of its reviews is pending is given on pressing both buttons at the approval. The review was opened by a blind signing request completing an upload of exactly the signed message, and has been pending since; the digest signed is the hash of this message and the key is the one named in the upload. Conversely, after any history, a complete upload for a valid key opens the review, the right button shows two pages that determine the hash, and both buttons then return the hash and its signature by this key. A rejection is answered with 6986, signs nothing and forgets the key.", "quantifier": "for both builds and displays, all histories of APDUs, buttons and restarts in which writes to the upload page and hash functions succeed, all keys and messages, all ways of cutting the message into packets", "why_tests_cant": "The key lives in a global separate from the review; that no interleaving of requests signs a reviewed digest with another key is a statement about all histories.", "anchors": ["rust/app/src/handlers/dev/blind_sign.rs", "rust/app/src/utils/buffer_upload.rs", "rust/zemu/src/ui_toolkit.rs"]}
{"id": "C91", "title": "The probes of the development build report faithfully", "statement": "After any history, an upload to be hashed is answered with the SHA-256 hash of everything uploaded. A request for an exception is answered with this exception, by the handler if it is to be caught and by the main loop if not, and changes nothing. A text of up to two lines of 17 characters to be echoed is shown to the user and acknowledged when they agree; a longer one is refused.", "quantifier": "for both builds and displays, all states of the running app, all exceptions, texts, messages and cuts into packets", "why_tests_cant": "Exceptions are not caught under test at all, and the texts and uploads tested are of one length.", "anchors": ["rust/app/src/handlers/dev/sha256.rs", "rust/app/src/handlers/dev/exception.rs", "rust/app/src/handlers/dev/echo.rs", "rust/app/c/main.c 144-167", "rust/bolos-impl/src/errors.rs"]}
{"id": "C92", "title": "A request that nobody knows is shown to the user", "statement": "In the development build, a request with an instruction that no build knows is shown to the user as it was sent, and acknowledged with success when they agree. Two different requests are never shown alike.", "quantifier": "for both builds and displays, all histories of APDUs, buttons and restarts, all instructions not in use, all parameters and data", "why_tests_cant": "Whether leftovers of an earlier request are shown depends on the history of a shared buffer.", "anchors": ["rust/app/src/handlers/dev/debug.rs", "rust/app/src/handlers/utils.rs", "rust/bolos/src/swapping_buffer.rs"]}
{"id": "C93", "title": "A global initialized when first used is one variable", "statement": "A global declared with the lazy_static attribute behaves as one variable from its first use on: the initializer's value counts once, every later use sees what earlier uses left, and memory that was not initialized is never read. So a record in flash that is opened when it is first used gives, for every history of reads, writes and restarts, the results of a record opened when the app starts. As flashed, a record of any number of pages consists of valid pages that read as not initialized.", "quantifier": "all types and initializers, all sequences of uses, all page contents, numbers of pages and histories of completed, failed and interrupted writes and restarts", "why_tests_cant": "The order of first uses depends on the order of requests, and a second initialization after a write would only show up as a watermark that went back; the tests use one instance right after creating it.", "anchors": ["rust/bolos-derive/src/lazy_static.rs", "rust/bolos-derive/src/nvm.rs 189-212", "rust/bolos/src/flash_slot.rs 94-126", "rust/bolos/src/flash_slot.rs 160-175", "rust/bolos/src/flash_slot.rs 290-307", "rust/app/src/handlers/hwm.rs 36-43", "rust/app/src/handlers/baking.rs 44-46"]}
{"id": "C94", "title": "A failing system call costs the request and nothing else", "statement": "Let any of the cryptographic system calls made during an event fail. Then what happens is exactly what would have happened without the failures, or the request is lost: the host is told 6400 or 6984, or the error screen comes up in place of the pending review; no signature is given, the app does not stop, and the records are as before, except that the watermark of the main chain may have been moved as it would have been. So failures never make the device sign, store or stop where it otherwise would not, and after any history every request is answered as specified or lost.", "quantifier": "for both builds and displays, all states, all events, any choice of failing calls, any fate of the writes to flash; the last clause for all histories", "why_tests_cant": "Errors of the system do not occur on the emulators and mocks that the tests run on, and which of the dozens of calls of a request fails, in which state, cannot be enumerated.", "anchors": ["rust/app/src/handlers", "rust/app/src/parser/operations", "rust/app/src/crypto.rs", "rust/zemu/src/ui_toolkit.rs"]}
{"id": "C95", "title": "Wear is spread evenly over the slots of a record", "statement": "The watermarks and the chain are kept in records of eight slots each. No event changes more than one slot of a record; at any time no slot has been changed more than once more often than another, and none more than an eighth of the changes of its record, rounded up. So a record endures eight times the changes that a slot endures.", "quantifier": "for both builds and displays, all histories of APDUs, buttons, restarts and power losses that the checksum detects, shorter than 2^64 events", "why_tests_cant": "The position kept in RAM is lost at every restart and found again from the contents; a drift would show only after many writes and restarts in a particular order.", "anchors": ["rust/bolos/src/flash_slot.rs 204-288", "rust/app/src/handlers/hwm.rs"]}
{"id": "C96", "title": "The names shown for bakers are those of the registry file", "statement": "The app is built only if every entry of the registry file has the text of some account. A delegate is shown by a name exactly if the file has an entry for its account, and then by the name of such an entry; otherwise by its address. An account whose address is in the file is found; if the addresses in the file carry the right checksum, the name shown is one that the file gives to the very address of the delegate.", "quantifier": "all registry files, all accounts; for the file in the repository with all its 125 entries", "why_tests_cant": "The table is made by a macro when the app is built; tests look up a handful of accounts, and a table that is not sorted as the search expects misses only some.", "anchors": ["rust/app-derive/src/unroll.rs", "rust/app/vendor/BakersRegistryCoreUnfilteredData.json", "rust/app/src/parser/operations/delegation.rs"]}
{"id": "C97", "title": "The version replied is the one in the version file", "statement": "The build reads the version file line by line: blank lines and comments are ignored, every other line gives a number below 256 to a name, and anything else, or a name given twice, stops the build. A file that gives numbers to APPVERSION_M, APPVERSION_N and APPVERSION_P can be built from, and the app then replies exactly these, in every state, to both requests for its version.", "quantifier": "all files, all states of the running app, both builds and displays", "why_tests_cant": "The tests compare the reply with the constants that the macro produced, so a macro that reads the file wrongly passes them.", "anchors": ["rust/app-derive/src/version.rs", "rust/app/src/handlers/version.rs", "rust/app/src/handlers/legacy/version.rs", "rust/app/Makefile.version"]}
{"id": "C98", "title": "No double signing, judged by the digests that were signed", "statement": "Also with the pending review kept in the buffer in which commands arrive: between two watermark resets/setups, the digests signed are those of strictly increasing consensus messages, whatever arrives while a review is pending; in particular never those of two blocks of the same level and round.", "quantifier": "for all ways of laying out a review in at most 126 bytes, all contents of memory at the start, all histories of commands of any length, buttons, restarts and power losses that the checksum detects", "why_tests_cant": "Needs a command of a particular length at a particular time during a review; tests send nothing during a review.", "anchors": ["rust/app/src/handlers/baking.rs", "rust/app/src/handlers/signing.rs", "rust/zemu/src/ui_toolkit/backends/nanos.rs 188-232", "rust/app/c/main.c 83"]}
{"id": "C99", "title": "No text of an earlier screen shows through", "statement": "The display is drawn from static buffers that are never cleared. Whatever was shown before - reviews, menus, error screens - a page of a review shows exactly its own title and text, the error screen exactly \"ERROR\" and \"SHOWING DATA\", and the menu \"DO NOT USE\" and \"enabled\" or \"disabled\". No leftover in a buffer makes the app abort.", "quantifier": "for both displays, all sequences of screens, all reviews whatever their operation, key, chain and memory, all positions", "why_tests_cant": "A leftover shows only if a longer text was drawn before a shorter one that was written without its terminator; the tests draw a handful of sequences on a fresh app.", "anchors": ["rust/zemu/src/ui_toolkit.rs 193-315", "rust/zemu/src/ui_toolkit/backends/nanos.rs 42-186", "rust/zemu/src/ui_toolkit/backends/nanox.rs", "rust/bolos-derive/src/pic_str.rs"]}
{"id": "C100", "title": "The menu tells the truth about expert mode, and only its user can change it", "statement": "Expert mode is off when the app starts. It changes only when both buttons are pressed while the idle menu shows the entry \"Expert mode:\": no request, review, error or failure changes it, and the user must have gone there with the right button since the menu came up. Whatever buttons are pressed and whatever screens come in between, the menu shows the entry that the user went to with its fixed texts, and under \"Expert mode:\" it says \"enabled\" exactly if the mode is on. Apart from this and from leaving the app, the menu does nothing: with it the device answers and signs as without.", "quantifier": "for both displays and builds, all sequences of buttons, requests, reviews, restarts and failures", "why_tests_cant": "The state of the menu is spread over the engine of the system, a flag and buffers that reviews overwrite; tests walk through the menu once, on a fresh app.", "anchors": ["rust/app/refactor/view_s.c 47-61", "rust/app/refactor/view_x.c 46-62", "rust/zemu/src/ui_toolkit/backends/nanos.rs 104-186", "rust/zemu/src/ui_toolkit/backends/nanox.rs 124-207", "rust/app/c/main.c 126"]}
{"id": "C101", "title": "No double signing as the software of a baker sees it", "statement": "If two calls of the JavaScript client for signatures of consensus messages both return success, one after the other, without a watermark reset or approved setup since the first began, the message of the later call is about a strictly higher item. In particular, of two calls for messages of the same protocol, kind, level and round at most one returns success.", "quantifier": "all histories of the device, with any other calls, buttons, restarts and power losses that the checksum detects; current and legacy calls, all paths, curves and messages", "why_tests_cant": "Joins the chunking, byte prefixing and answer reading of the client with the watermark of the device over any number of sessions; the client is tested against single requests.", "anchors": ["js/src/index.ts", "rust/app/src/handlers/baking.rs", "rust/app/src/handlers/hwm.rs"]}
{"id": "C102", "title": "What a passing display test says is what the user of a device reads", "statement": "The tests of the repository display parsed operations on a mock and compare titles and texts. Whenever such a test passes and a device opens the review of the same operations, pressing the right button leads to the approval without any answer in between, and the user has by then read, under a title that starts as the test says, every text that the test expects first for an item, with dots for characters that are not ASCII. A test passes exactly if all items can be displayed as UTF-8 and those it mentions are as expected; it does not look at further texts of an item, nor at items it does not mention.", "quantifier": "for all operations, all expectations, all states of the device, both displays (on the larger one for less than 256 items)", "why_tests_cant": "It is a statement about the tests: a mock with large buffers and no buttons stands for two displays that cut texts into pages and are walked with buttons.", "anchors": ["rust/zuit/src/lib.rs 129-188", "rust/app/src/parser/integration_tests.rs 81-97, 416-484", "rust/app/src/handlers/signing.rs 141-150"]}
{"id": "C103", "title": "The fuzz target of the operation parser finds nothing", "statement": "For every input the loop of the fuzz target ends and does not crash. It finds at most as many operations as there are bytes after the 32-byte branch. It ends without an error exactly if there is a branch and the rest is a sequence of operations, as the review of a signature reads it; the whole input has then been read.", "quantifier": "all inputs of any length", "why_tests_cant": "Fuzzing samples inputs; here the claim is for all of them.", "anchors": ["rust/hfuzz-parser/operations.rs", "rust/app/src/parser/operations.rs 99-159"]}
{"id": "C104", "title": "A test on a computer sees what a device does whose user reads and approves everything", "statement": "The integration tests run the app on a computer, where every review is approved at once. Whatever requests such a test makes, if it runs without a panic and all items of its reviews can be displayed, there are buttons to press on a device with the same memory - none for a request without a review; through all items of the review with the right button and then both for one with a review - so that the same requests get the same answers and signatures in the same order, the user has been shown every item, and the memory of the device is in the end that of the test. Every review other than of operations can be displayed, and so can valid operations with at most 255 items and numbers below 2^28.", "quantifier": "for all builds, both displays, all states of the memory and of the display, all sequences of requests, whatever writes fail", "why_tests_cant": "It is a statement about the tests: code that is compiled only for them stands for the display, the buttons and the user.", "anchors": ["rust/zemu/src/ui_mock.rs 64-78", "rust/app/tests/prelude.rs 55-80", "rust/app/src/dispatcher.rs", "rust/app/src/handlers", "rust/zemu/src/ui_toolkit.rs 55-190"]}
{"id": "C105", "title": "A host that waits for its answers gets what the user reviewed and nothing else", "statement": "If the host sends a command only when the previous one has been answered or the app has been started again, no command reaches the app during a review, and the exchange buffer, in which commands, replies and the pending review share the memory, never matters: the device goes through a history of the app with the review safe. Then a signature other than of a consensus message is given out only when the user approves a review that showed this very message all along, it is of the digest of this message and made with the key named in the request, and the digests of consensus messages signed are of strictly increasing items. Every program that does nothing but call the client library, one call after the other, is such a host, whatever it calls and whatever the user does.", "quantifier": "all histories of the device with its exchange buffer, whatever its contents and the layout of reviews in memory; all programs of the client", "why_tests_cant": "Without the condition the claims are false (C42, C43, C80, C98); tests never send a command during a review, and do not share memory between commands and reviews.", "anchors": ["rust/zemu/src/ui_toolkit/backends/nanos.rs 188-232", "rust/app/c/main.c 83-140", "js/src/index.ts", "rust/app/src/dispatcher.rs 198-220"]}
{"id": "C106", "title": "The test of a baker's messages passes for ascending messages only", "statement": "The integration tests send a message in packets with a helper. Whatever the message, key and answers, the helper sends a beginning of a proper upload of this very message, stops early exactly at the first answer other than 0x9000, and hands out the last answer. The test that resets the watermark to level 0, authorizes a key and has a list of samples signed passes exactly when every sample is a well-formed consensus message of a level below 2^31 and about a strictly higher item than the sample before.", "quantifier": "all messages and lists of samples that are no operations and fit the upload buffer, all paths of one to ten numbers, all curves, after any history in which writes succeed or the power fails", "why_tests_cant": "It is a statement about the test: which samples would let it pass, beyond the few it has.", "anchors": ["rust/app/tests/prelude.rs 47-132", "rust/app/tests/baking_prelude.rs 23-47", "rust/app/tests/baking.rs 29-59", "rust/app/src/handlers/baking.rs"]}
{"id": "C107", "title": "Which display tests pass is determined by the operations of the protocol, and the generated ones do", "statement": "A test vector has the bytes of operations and the titles and texts that their review must have. A vector with valid operations passes exactly if the device can read all numbers in them and every text expected for an item is right: a text for what this item of the protocol's operation must say, under its title. There is only one such text for every item, except for one account that is registered as a baker under two names; of these only one passes. The generators of test vectors always make vectors that pass, whatever they learn from the emulator, the node and the random numbers, if the node forges the operation they describe, its amounts and counters can be read by the device and the addresses of the device are not registered bakers. Their way of writing amounts, with floating point numbers, is right below 2^52 and wrong for some larger integers.", "quantifier": "all batches of valid operations with at most 255 items, all expectations, all hash functions, all generators, all answers of device and node", "why_tests_cant": "It is a statement about the tests and the programs that make them: what a vector that passes means, and that none is wrong; running them samples both.", "anchors": ["zemu/test-vectors-gen/*.ts", "rust/app/src/parser/integration_tests.rs 81-97, 416-484", "rust/app/src/parser/operations", "rust/zuit/src/lib.rs 129-188"]}
{"id": "C108", "title": "A sample of the integration tests passes as a whole exactly if its description is right, and then says what a device shows", "statement": "A sample has the bytes of operations, a description of them in JSON and the display expected. For valid operations whose numbers are described with decimal digits the whole test passes exactly if the branch is described by its text, there is one description for each operation and none besides, of its kind and with its fields, every number is one that the device can read, and the display expected is right. Samples that pass with the same description are of the same branch and of operations that agree one by one in everything but what the tests do not look at: the arguments of calls, the code and storage of contracts, denunciations, the signature of an endorsement with slot, the data of failing operations, whether there is a call if the default entrypoint is described, and proposals that are described but not proposed. The samples that the generators write pass as a whole. The tests run on a computer where numbers have 64 bits, and the display there is not that of the device for amounts from 2^28 on; but if the whole test of a sample passes, whatever its bytes, the user of a device that opens the review of these bytes reads every item expected.", "quantifier": "all batches of valid operations and, for what the device shows, all bytes; all descriptions and expectations; all hash functions", "why_tests_cant": "It is a statement about the tests: what a sample that passes means, and what it does not say.", "anchors": ["rust/app/src/parser/integration_tests.rs 53-138, 368-484", "rust/app/src/parser.rs 160-186", "rust/app/src/parser/operations/*.rs (the `is` functions of tests)", "zemu/test-vectors-gen/index.ts"]}
{"id": "C109", "title": "Wherever the app is installed, its code finds its constants, tables, methods, records and globals", "statement": "The app is linked for one address and installed at another, and pointers stored in it stay as they were linked. On every installation that is clear of the address it was linked for (or just there): a constant or text read through PIC has the bytes of the source, texts of pic_str! with a final NUL unless told otherwise; the lookup of a baker in the table in memory touches no memory it must not, never takes a name for garbage and finds exactly the name that the table of the source has; a method called on the view shown is that method of the type of this view, so that an approval never runs the code of a rejection; a flash record is written where it is read, and no other byte changes; a lazily initialized global is initialized once. Where the installation overlaps the linked addresses, some place of the app is mistaken for another; and without the translation, as in the mock of the tests, constants cannot be read.", "quantifier": "all images, addresses of linking and installation, tables of bakers, orders of fields chosen by the compiler, contents of memory", "why_tests_cant": "In the tests PIC is a mock that does nothing, on a computer that relocates pointers itself: a pointer that is not translated, or translated twice, is not seen.", "anchors": ["rust/bolos-sys/src/pic.rs", "rust/bolos-derive/src/pic_str.rs", "rust/app-derive/src/unroll.rs 119-168", "rust/zemu/src/ui/manual_vtable.rs", "rust/bolos-derive/src/lazy_static.rs 130-200", "rust/bolos-impl/src/nvm.rs 60-99"]}
{"id": "C110", "title": "Left and right move through a review one screen at a time, and both buttons choose exactly at the approval and the rejection", "statement": "When all items of a review can be displayed, a reader moves through its screens as through pages: whatever buttons they press, as long as they have not chosen, only the display changes, nothing is answered, and the screen shown is the one at the position that the presses lead to, one forward for right, one back for left, stopping at the first screen and at the rejection. Both buttons approve exactly at the screen after all others, and reject exactly at the last one; elsewhere they do nothing (or, on the smaller display in expert mode, go to the approval). So a call that signs a batch returns the digest and signature, is refused with 0x6986, or stays pending, as the position says. The scripts of the emulator tests press right 30 times, then left, then both: they get their signature exactly if fewer than 30 screens precede the approval, and otherwise wait for ever; scripts that count the screens get theirs exactly if they counted right.", "quantifier": "all reviews all items of which can be displayed, both displays, all sequences of presses of any length, all batches of readable operations, after any history", "why_tests_cant": "Tests press one fixed sequence per review and compare pictures; going back, going on at an end, or both buttons elsewhere is not tried, and the number of screens of all batches is unbounded.", "anchors": ["rust/zemu/src/ui_toolkit.rs 55-190", "rust/zemu/src/ui_toolkit/backends/nanos.rs", "rust/zemu/src/ui_toolkit/backends/nanox.rs", "rust/app/refactor/view_s.c", "zemu/tests/testvectors.test.ts 44-51, 105-112", "zemu/tests/baking.test.ts 253-339"]}
{"id": "C111", "title": "A baker that asks for one signature after the other gets exactly those above all signed before; what the baking tests on the emulator find out of this", "statement": "After any history, when a key is authorized and the last item signed (or the level set by a reset or a setup) is known, a program that asks with signBaker of the client for the signatures of any sequence of well-formed consensus messages gets the digest and the signature of exactly those messages that have a level below 2^31 and are above every message signed before in the sequence and above that last item; every other call returns 0x6984 and nothing else, and has no effect on the calls after it. The builders of messages in the baking tests build well-formed messages of the level and round they are given, except that a round of zero in a block is taken for none and an Emmy block is built. The baking tests pass, at the levels they use and all others from 1 to 2^31 - 1. Because of the mistake with the round zero they ask for nothing twice that is Tenderbake: a device that signs every Tenderbake message, and so signs twice, passes them all; with the round zero sent they would have found this out.", "quantifier": "all sequences of well-formed consensus messages of any length, all histories, all levels and rounds of 32 bits, all key paths and curves, all hash functions and signatures", "why_tests_cant": "The tests ask at most five times in a row, with fixed levels; whether they would find a wrong rule is a question about the tests themselves.", "anchors": ["zemu/tests/baking_utils.ts", "zemu/tests/baking.test.ts 383-613", "js/src/index.ts 295-365", "rust/app/src/handlers/baking.rs", "rust/app/src/handlers/hwm.rs"]}
{"id": "C112", "title": "The app is a machine of five registers driven by what passes over its ports", "statement": "While nothing fails, everything that the answers of the app depend on can be computed by an observer who sees only its ports: the requests, which of them are not answered at once, which button presses are answered with success, and restarts. The observer keeps the authorized key, the last signed item, the message being uploaded, what the user was last asked for, and whether the app runs. At every moment of every history these are what the device has, and every request is answered as the table of answers says for them: refused with this word, served, signed (this message), asked, or the app stops. The queries for the watermark and for the authorized key tell what the observer has. So nothing else on the device matters to the host: two devices with the same app, with other seeds, screens and histories, of which the same was seen, both sign the same message at the same request or neither signs one, and stop together.", "quantifier": "all histories of any length (below 2^64 events) in which flash writes and cryptographic calls succeed, all builds, displays, seeds and hash functions, all requests at any moment", "why_tests_cant": "That no hidden state influences an answer is a statement about all pairs of histories that look the same; tests compare single runs with what their author expects.", "anchors": ["rust/app/src/dispatcher.rs", "rust/app/src/handlers/baking.rs", "rust/app/src/handlers/baking/authorization.rs", "rust/app/src/handlers/hwm.rs", "rust/app/src/handlers/legacy/baking/setup.rs", "rust/app/src/utils/apdu_wrapper.rs", "rust/app/src/utils/buffer_upload.rs"]}
{"id": "C113", "title": "A restart forgets everything but the records", "statement": "After the app is started anew, nothing of what happened before can be found out from its answers or its screens, except through the records (the watermarks, the chain and the authorized key): two devices of the same kind whose records are the same answer the same events alike and show the same screens at every moment, whatever was left in their memories, such as an unfinished upload, a pending review, the path of a key, expert mode, or bytes of earlier messages in the upload area of the flash, which are never erased. So a wallet, which writes no records, cannot be told from a new one after a restart, whatever was done with it before.", "quantifier": "all pairs of devices, all pasts with whatever failures, all events of any length after the restart, including further restarts, failing writes and power failures, all builds, displays, seeds and hash functions", "why_tests_cant": "It compares all pairs of pasts that could have left something behind, over all later events; a test sees single runs on a freshly started emulator whose upload area is blank.", "anchors": ["rust/app/src/utils/buffer_upload.rs", "rust/bolos/src/swapping_buffer.rs", "rust/app/src/handlers/signing.rs", "rust/app/src/handlers/baking.rs", "rust/app/src/dispatcher.rs", "rust/zemu/src/ui_toolkit.rs"]}
{"id": "C114", "title": "Nothing that the app does depends on a key that no request has named", "statement": "A request names a key when it has its curve in p2 and its path where this request has a path: requests for a public key or an address, the opening packet of a signing command, authorization, setup and HMAC. Two devices with different seeds, of which only the keys that the requests name are the same, go through the same states with the same texts on their displays and give the same answers to the same events. So no sequence of requests, approved or not, brings a public key, a signature or anything computed from one to the host or onto the display for a key that the host has not named, and a key is used for baking only after it was named.", "quantifier": "all pairs of seeds, all histories of any length (below 2^64 events), all failures of writes to the records of which those of the key record are detected, all builds, displays and hash functions", "why_tests_cant": "It compares all pairs of seeds over all histories; the emulator tests run with one fixed seed.", "anchors": ["rust/app/src/dispatcher.rs", "rust/app/src/handlers/public_key.rs", "rust/app/src/handlers/signing.rs", "rust/app/src/handlers/baking.rs", "rust/app/src/handlers/baking/authorization.rs", "rust/app/src/handlers/baking/hmac.rs", "rust/app/src/handlers/baking/queryauth.rs", "rust/app/src/handlers/legacy/baking/setup.rs", "rust/app/src/crypto.rs"]}
{"id": "C115", "title": "The chain and the test level of a setup are reported and influence nothing else", "statement": "A setup stores the chain and the level of the test chain, the report of instruction 0x0B tells them, and nothing else depends on them. Two devices that differ in these two records only (and in which these records are sound) answer all events alike, sign the same messages, and show the same screens, except for the bytes of the reports, which both give or neither gives. So approving a setup for one chain and test level or for another gets the same answer and leads to the same behaviour; and of two devices with any pasts whose watermarks and keys came to be the same, nothing else is told after a restart. A baker must therefore not rely on the chain or the test level of the setup to restrict what is signed.", "quantifier": "all pairs of contents of the two records, all later events of any length including restarts, resets, setups and power failures that leave the record of the test level sound, all builds, displays, seeds and hash functions", "why_tests_cant": "It compares all pairs of devices over all later events; the tests set up one chain and look at the report.", "anchors": ["rust/app/src/handlers/hwm.rs", "rust/app/src/handlers/legacy/hwm.rs", "rust/app/src/handlers/legacy/baking/setup.rs", "rust/app/src/handlers/baking.rs", "rust/app/src/handlers/baking/authorization.rs"]}
{"id": "C116", "title": "Restarting the app after a failed watermark write restores the protection against double signing", "statement": "A write of the watermark that fails with an exception makes an old watermark current until the app is restarted, so that levels already signed could be signed again (C01, C16). The host is told: such an event is answered with 0x6400 or 0x9001 and carries no signature, and after a restart the device has the records it would have after a power failure at the same write. This happens only to requests with the instructions 0x04, 0x06, 0x0F and 0xAF and when a review is approved. So when the app is restarted each time one of these is answered with 0x6400 or 0x9001, the consensus signatures are in strictly increasing order, and none is given twice for the same level, round and kind, whatever writes of the watermark failed, in whatever way that the checksum of a page detects; calls of the client that return success are in the same order.", "quantifier": "all histories of any length (below 2^64 events) with failing writes of the watermark and power failures at any events, all builds, displays, seeds and hash functions; between the two signatures no reset and no approved setup", "why_tests_cant": "Flash writes do not fail in the emulator, and the old value shows up only when the eight pages have been gone through.", "anchors": ["rust/bolos/src/flash_slot.rs", "rust/app/src/handlers/hwm.rs", "rust/app/src/handlers/baking.rs", "rust/app/src/handlers/legacy/hwm.rs", "rust/app/src/handlers/legacy/baking/setup.rs"]}
