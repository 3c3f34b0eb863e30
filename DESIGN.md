# Formal model of Zondax/ledger-tezos in Lean 4

The model is in `lean/Verif`. Code paths below are relative to `/repo/rust`; `src/` means `app/src/`.

## 1. Shape of the model

Small total computable functions over `List UInt8`, `Nat`, `UInt8/UInt32` and plain structures.
Rust `Result`/`Option` stay data. A Rust panic (which on the device is `exit_app(255)`,
`bolos-impl/src/lib.rs` 55-70) is an explicit outcome, never a default value. `&mut` arguments become
returned values. External functions (hash, signature, key derivation, CRC where its exact value does
not matter, base58) are parameters.

| Layer | Lean module | Rust code |
|---|---|---|
| bytes, big-endian numbers, nom primitives | `Bytes`, `Nom` | `core`, `nom 6` (`take`, `tag`, `be_u16/32/64`, `le_u8`) |
| BIP32 paths, curves, status words | `Bip32`, `Codes` | `bolos-common/src/bip32.rs`, `src/crypto.rs`, `src/constants.rs` |
| flash pages and wear levelling | `Flash` | `bolos/src/flash_slot.rs` |
| upload: lock, swapping buffer, uploader | `Upload` | `src/handlers/lock.rs`, `bolos/src/swapping_buffer.rs`, `src/utils/buffer_upload.rs`, `src/handlers/utils.rs` |
| watermark, chain id | `Watermark` | `src/handlers/hwm.rs` |
| consensus parsers | `BakingParser` | `src/parser/baking.rs`, `src/parser/baking/*.rs`, `src/parser.rs` |
| Zarith and operations | `Zarith`, `Operations` | `src/parser.rs`, `src/parser/operations.rs`, `src/parser/operations/*.rs` |
| formatting, paging, rendering | `Format`, `Render` | `src/handlers/utils.rs`, `render_item` of each operation |
| addresses, double hashing, baker registry | `Crypto`, `Bakers` | `src/handlers/public_key.rs`, `src/handlers/utils.rs`, `app/vendor/` |
| build-time macros: baker table, version | `Unroll`, `Version` | `app-derive/src/unroll.rs`, `app-derive/src/version.rs` |
| decisions on consensus messages | `Consensus` | `src/handlers/baking.rs` 192-287 |
| Nano S review navigation | `Zui` | `zemu/src/ui_toolkit.rs`, `zemu/src/ui_toolkit/backends/nanos.rs`, `app/refactor/view_s.c` |
| Nano X and S+ review navigation | `ZuiX` | `zemu/src/ui_toolkit.rs`, `zemu/src/ui_toolkit/backends/nanox.rs`, `app/refactor/view_x.c` |
| static buffers of the display | `Buffers` | `zemu/src/ui_toolkit.rs` 193-315, `zemu/src/ui_toolkit/backends/nanos.rs`, `nanox.rs` |
| idle menu | `Menu` | `app/refactor/view_s.c` 47-61, `app/refactor/view_x.c` 46-62, `zemu/src/ui_toolkit/backends/*.rs` |
| keys and signatures down to the system calls | `Sys` | `src/crypto.rs`, `bolos-impl/src/crypto.rs`, `bolos-impl/src/crypto/ecfp256.rs`, `bolos-impl/src/errors/exceptionsS.rs` |
| hashes and HMAC down to the system calls | `Hash` | `bolos-impl/src/hash.rs`, `bolos-impl/src/hash/*.rs`, `bolos-impl/src/hmac.rs`, `bolos-impl/src/hmac/sha256.rs`, `src/handlers/utils.rs` |
| exceptions of the system | `Catch` | `bolos-impl/src/errors.rs`, `bolos-impl/src/nvm.rs`, `app/c/main.c` 121-172 |
| JavaScript client library | `Client`, `ClientInfo` | `js/src/*.ts` (beside `/repo/rust`) |
| lazily initialized globals, initial flash | `Lazy` | `bolos-derive/src/lazy_static.rs`, `bolos-derive/src/nvm.rs`, `bolos/src/flash_slot.rs` 94-175, 290-307 |
| translated addresses | `Pic` | `bolos-sys/src/pic.rs`, `bolos-derive/src/pic_str.rs`, `app-derive/src/unroll.rs` 119-168, `zemu/src/ui/manual_vtable.rs`, `bolos-derive/src/lazy_static.rs`, `bolos-impl/src/nvm.rs` |
| samples of the tests as a whole, on a computer | `Samples` | `src/parser/integration_tests.rs` 53-138, 368-484, `src/parser.rs` 160-186, the `is` functions in `src/parser/operations/*.rs` |
| display tests, fuzz target | `Zuit`, `Fuzz` | `zuit/src/lib.rs`, `src/parser/integration_tests.rs` 81-97, 416-484, `hfuzz-parser/operations.rs` |
| integration tests on a computer | `Host`, `HostTests` | `zemu/src/ui_mock.rs`, `app/tests/prelude.rs`, `app/tests/baking_prelude.rs`, `app/tests/baking.rs` |
| generators of test vectors | `Gen`, `Spec/Forging` | `zemu/test-vectors-gen/*.ts` (beside `/repo/rust`) |
| scripts of the emulator tests | `ZemuTests`, `Spec/Cursor`, `Spec/Verdicts` | `zemu/tests/testvectors.test.ts`, `zemu/tests/baking.test.ts`, `zemu/tests/baking_utils.ts` (beside `/repo/rust`) |
| development build | `Devel` | `src/handlers/dev/*.rs`, `src/dispatcher.rs` |
| handlers, dispatcher, whole device | `Device` | `src/handlers/**`, `src/dispatcher.rs`, `src/utils/apdu_wrapper.rs`, `app/c/main.c` |

Proof layers over the model (no model definitions of the code in them):

| Module | Content |
|---|---|
| `ConsensusSpec` | the accept decision of the code equals a decision on byte offsets of the message |
| `Cell`, `DeviceLemmas`, `Effects`, `Steps` | what each command, approval and event can do |
| `Histories`, `Sessions`, `Origins` | invariants along histories; the upload session of the host; where a pending review comes from |
| `Reread` | the parsed operation of a baking review, read again from the upload memory |
| `Calm` | parsers, texts and screens that do not abort |
| `Talk` | conversations of the client with the device |
| `RealHash`, `Conformance/*` | the test data of the repository, run on the model (section 3) |
| `Scenario` | a concrete device for the examples beside the theorems (a stand-in cryptography; not a model of code) |

The device is a state machine: flash (four wear-levelled stores), RAM (upload buffer and lock, pending
signing key, pending review), and events: APDU received (an arbitrary buffer and length),
button presses, switching expert mode, relaunch. The display is either that of the Nano S or that of the
Nano X and S+; it is chosen when the device is made and never changes. Every event carries an environment: the crypto functions in force,
and the outcome of each flash write it performs (done, failed with an exception, or power lost leaving
an arbitrary page). Power loss between flash writes is power loss at the next or previous write with
the page equal to its old or new contents, so every crash point is covered.

Specifications used in theorem statements are kept apart from the model (`Verif/Spec/*.lean`): offsets
of level/round in a consensus message, the order of consensus messages, protocol encoders of the
operations, decimal value of a string, the items of a review and how their texts are read, the abstract single-cell store, the abstract upload session.
Property theorems are in `Verif/Props/*.lean`.

## 2. Plan per property

"Neg." marks a property that the code violates: the negation is proved with a concrete witness and the
part that does hold is proved under a `_partial` name.

| Id | Model and proof method |
|---|---|
| C01-C04 | Device machine; invariant "stored watermark dominates every signed item" by induction over the event list, with crash outcomes; items read from signed bytes by the offset-based spec. Where writes fail before the first signature, a weaker invariant of the record (`Store.Loose`) holds up to it and the strong one from it on. |
| C05 | Same machine; statement about the flash in the state after the replying step, and for every crash outcome. `C05_whatever_fails` uses `Store.Loose`, so that writes may fail anywhere. |
| C06 | Neg. (Tenderbake below the reset level); partial for Emmy, also after failed writes of the watermark. |
| C07 | Step-wise monotonicity of the watermark under all events but reset and setup approval. |
| C08 | Corollary of the acceptance lemma. |
| C09, C10, C50 | Ghost-free: the authorized key read from flash changes only on approve events; induction over histories. |
| C11, C12 | Step lemma on all events in both builds. |
| C13, C14 | Exact characterisation of the accept condition against the offset spec. |
| C15 | Neg.; partial via C01. |
| C16 | Neg.; partial: the value after a failed write is characterised; for any number of failing writes the index stays at or beyond the newest page (`Ahead`), so the next completed write or restart puts the record right. |
| C17, C18 | Refinement of `Wear` to a single cell; invariant on page counters. C19 Neg. |
| C20 | Concrete CRC-32; round trip, and single-byte corruption by linearity. |
| C21, C22, C23, C54 | Round trips. C23 constructor Neg. |
| C24-C27 | Refinement of lock + swapping buffer + uploader to an abstract session. |
| C28-C30 | Dispatcher model; C30 Neg. for the baking build. |
| C31, C32, C34 | Independent protocol encoders; parse∘encode and encode∘parse. C32 Neg. in two places. |
| C33 | Zarith value specification. |
| C35 | Decimal value specification of the displayed string. |
| C36 | Pages concatenation; Neg. for the count at exact multiples. |
| C37 | Zui machine, induction over button sequences. |
| C38, C39, C41 | Item counting and index mapping. C38, C41 Neg. |
| C40 | Injectivity of rendering under injectivity of the hash/base58 parameters; Neg. for the entrypoint. |
| C42, C43, C44, C45 | Device machine with reviews holding references into the upload buffer. C42, C43 Neg. under interleaving. |
| C46-C51 | Device machine. C51 Neg. |
| C52, C53 | base58check addresses and the address command. |
| C57 | Specification of every item by title and meaning (`Spec/Display`); texts are read back, pages are put together from the screens along the history. |
| C58, C59 | Device machine; the records read back through the queries after any number of restarts; reviews as in C57. |
| C60 | Upload session started afresh at every restart. |
| C61 | Non-interference: the same step with another signing function. |
| C62, C63 | Client programs run against the device; the answers of each exchange traced to the packet or approval behind them. |
| C64, C65, C66 | The other calls of the client: the one exchange of each call opens at a packet and, if it is answered later, ends at an approval to which C58, C59 or C47 applies. |
| C67, C68 | As C65 and C62, but following what the legacy calls make of the answers; texts by the pieces between their slashes. |
| C69-C72 | The requests to the system written out; promises of the system as hypotheses; C70 joins C62 and C65 in one history. |
| C73-C75 | Invariant over the positions of a review on the larger display, for any buttons; the reviews of the app never lack an announced item, with counts cut to 8 bits; C57 for the texts; then on the device, where a flow left below its first step never answers. C74, C75 Neg. |
| C76 | The same for the small display: the lengths of all texts the app makes are bounded, so that none fills its last page; then induction over the pages. Neg. for items that fail. |
| C77 | The calls written out on contexts of the system; a context is described by what it was fed since it was initialized. |
| C78 | C59 for the command; C65 for the client; the functions of C77 and the keys of C69. |
| C79 | A measure on the position of a review that each press lowers until the reject item is reached (small display); an invariant of the positions before the failing item, for any buttons (larger display). Neg. on the larger display. |
| C80 | The exchange buffer with the review at its end, for any layout of reviews in memory; refinement to the device machine by the invariant "the review is in its place". Neg. for long commands during a review. |
| C81 | The operating system's answer as a parameter; its format stated as an encoder. Neg. for other formats and for no flags. |
| C82 | Every output of a device step ends with one of fifteen status words; the client's code is one of these, by the conversations of C64. Neg. for "rejected". |
| C83 | A machine with the stack of `catch_raw` activations and the current context against structured exceptions; induction on the program. |
| C84 | From the upload (C14's `Uploading`), through the review that opens (C76, C75 walks on either display), to the approval; what is read is compared with `batchReview`. Partial: numbers from 2^28, more than 255 items. |
| C85 | The same path (request, review, walk, approval) for the requests about keys and watermarks, over histories whose record writes are atomic (`Kind`, so that every record can be read and written); what is stored is read back through `storedKey` and `Reports`, also after `relaunch`. |
| C86 | By induction on the events since the watermark was set (`SetsLevel`): the main record can be read and is below the message, by C51 and the sessions of the spec (`Offers`); the key by C50. Then C14. |
| C87 | Handler by handler against `Spec.answer`, on a state of which it is known that records can be read and written (`Dev.Sane`, by C85's invariant) and the upload buffer holds the session (`UplInv`); the status words and the checks are in the table. The converse (`C87_reasons`) by cases of the answer. |
| C88 | The packets a call of the client sends while it is acknowledged (`Sends`) are an upload or a request in the sense of C84, C85 and C14; the replies given there, fed to the call, give its result (`Client.after`); both together are a conversation (`Talk`). |
| C89 | Refinement of the development build to the app while no additional instruction is used; otherwise each additional step is shown to keep the four records, so that C01's argument goes through. |
| C90 | The upload session extended by the additional families and by the unknown requests, which end it; where a review of a digest comes from by induction on the history; the walks of C75 and C76 for its two pages. |
| C91 | The upload session for the hash; the machine of C83 for exceptions; the walks for texts. Neg. for short texts. |
| C92 | The same walk, for an empty buffer. Neg. for zero bytes and leftovers. |
| C93 | Refinement: the position in the global is that of a record opened at the start, if it was used; the same for `Store`. The initial pages by computing the loops of `expand_array` and `as_storage`. |
| C94 | Two runs of one event, one with failures: every text, screen and handler gives the same or an error, by induction over the code. |
| C95 | Along every history a record has had `k` changes, slot `a` of them `turns 8 a k`; the bounds are arithmetic. |
| C96 | Base58 decoding inverts `base58`; the sorted table keeps the entries; the table of the file is evaluated and equals `knownBakers`. |
| C97 | Lines, trimming and numerals against relations on texts; the reply by C59. |
| C98 | `MainStep` without the invariant on reviews, for the app that the code finds after a command arrived; C80 for the rest; neg. by evaluation. |
| C99 | An invariant of the buffers (lengths, ASCII, a terminator where one is read); no text of a review has a zero byte inside, by cases over all items. |
| C100 | The invariant of C99 with the texts of the menu; expert mode by cases over events; induction over the run for the entry shown; a simulation for the rest. |
| C101 | C62 for each call, C01 for the two signatures. |
| C102 | With the large buffers of the tests every item is one page and read back as written (C99: no zero byte inside); then C75 and C76 for the device. |
| C103 | Every operation takes at least one byte; no parser panics. |
| C104 | The handlers are written once more with the way of showing a review as a parameter (and are equal to those of the device for the device's way); a handler either shows nothing or ends by showing one review; handlers and approvals do not look at the display; then walk the review with C75/C76 and approve. |
| C105 | Invariant: while a review is pending the host is owed an answer (a command that opens a review is not answered, an answer by a button ends the review); with it the board's invariant of C80 holds at every step; then the orderly forms of C42 and C43, and C98, C101. That the client waits is by induction on its calls. |
| C106 | The helper by induction on the chunks, against `hostRun` of C104. The test: every packet but the last is acknowledged (specification of uploads), the last runs `baker_sign` on the whole message; its decision is that of the consensus specification; invariant over the samples: the watermark is the item of the last one. |
| C107 | C102 says which items a test looks at and C57 what they say; then every meaning has one text (digits, base58, hexadecimal), so a right expectation is the text of the app. The generators case by case; the quotient by a million is off by less than half a millionth below 2^52. |
| C108 | Each comparison of a field is an equivalence with what the field must be described by: texts are unique (C107), numbers below 2^28 are exact in f64 and half of the distance between two integers is more than the tolerance. Then by operation, batch and sample (C31, C34, C107). A number that passes the comparison fits in 32 bits, so that the computer and the device display the same, and C102 applies. |
| C109 | An address of a place of the image, linked or installed, translates to the installed one; so every byte, word and reference read is the one the linker left. The monadic search of the table then follows the pure one of `Bakers` step by step. |
| C110 | Invariant on both displays: the display state is the one of position p (item and page, approval or rejection), the paging functions keep it with p one more or less. Then the scripts by computing positions; the answer at the approval by C88, the refusal by C87. |
| C111 | One call: C86 says when it is signed, C94 what a refusal leaves; the client sends the message in packets and returns the answer. Then by induction over the calls with the invariant of C106 (key and last item). The builders by computing their bytes; the tests by computing the verdicts of their items. |
| C112 | The registers agree with the device by induction over the events: a request by C87 (the answer says what is signed and so what the watermark becomes), an approval by what `accept` writes (`Dev.Takes.approved`), a restart because the records read the same; no other event changes a record. Whether the app runs: it stops only with a fault (`Dev.step_running`), and the only one without a power failure is that of C30. |
| C113 | A relation between two devices (`Dev.Alike`): equal but for the upload area of the flash, of which the first `h` bytes agree, where `h` bounds what was written since the start; the count of the buffer and what a pending review refers to lie within. Every handler and every button keeps it and gives the same output (`Dev.Near.*`); after a power failure only the lengths are kept, which is enough for the next start. |
| C114 | Two worlds that differ in public keys and signatures only. Texts depend on hash functions only, so every handler is equal in both as long as the keys it uses agree (`Dev.step_keys`); the keys that a device may use next (`Dev.Uses`: the authorized key, the key of a pending review, the path set by a signing command) were named by earlier requests (`run_uses`, from the histories of C50 and the sessions). |
| C115 | Two devices that differ in the records of the test level and of the chain (`Dev.tc`). The result of a write to a sound record depends on the fate only (`Store.Firm.write_res`), so every handler but the report goes the same way on both (`Dev.Beside.step`); a reset may write the chain on one of them only, and this write succeeds by hypothesis. The report leaves the device as it is (`Dev.report_cases`). With C113 this gives the statement about pasts. |
| C116 | A history with failing writes of the watermark beside the same history with power failures at these writes (`cutHistory`). Each event goes alike in both, or is answered with one of two words and leaves the same in the flash (`Dev.step_cut`); a restart makes the devices equal again (`Dev.Rested.relaunch`, `Dev.trace_twins`), so C01 carries over. |

## 3. Trusted base

- Lean's kernel. Every theorem of `MANIFEST.json` depends only on `propext`, `Classical.choice` and `Quot.sound`
  (checked with `#print axioms`); there is no `axiom`, `sorry`, `native_decide` or `bv_decide` in the project.
- That the definitions below describe the code. They were written by reading the source; nothing was run. Each
  definition cites the file and lines it stands for. What speaks for them beyond reading is in "Evidence for the model".
- What is assumed of the outside world appears as a hypothesis of the theorem: sizes of hashes (`Crypto.Sized`), fates
  of flash writes (`Fate.Sound`, `Fate.Detected`, `Firm`, `Good`), the length of the exchange buffer (`Event.Full`),
  injectivity of hashes where a digest is displayed, that the signatures of the system verify (`Sys.Sound`), and that its
  hash calls hash what they are fed (`HashSys.Sound`).
- The engine of flows of the operating system on the Nano X and S+ is not in the repository; it is taken as
  described at the top of `ZuiX.lean`. In particular a flow left at an index below its first step does nothing at any
  button (`XError.lost`), while commands are still answered.
- The same holds of the engine of menus of the Nano S, see the top of `Menu.lean`.
- Whether a command is delivered while a review is pending is decided by the transport of the operating system, which
  is not in the repository. The model lets commands through at any time. Systems that hold them back until the
  outstanding reply is sent are the `Orderly` histories: for these C42, C43 and C80 hold without exception
  (`C42_approved_is_reviewed_orderly`, `C43_requested_key_orderly`, `C80_same_as_app`), and the negations of C42, C43,
  C80 and C98 do not apply. `Device` alone takes the pending review as safe from such commands; by C80 this is right for
  commands that do not reach it. Hosts that wait for their answers, such as programs of the client library, make only
  such histories, whatever the transport does (C105).

### Modelled

Everything an APDU or a button press can reach, on either display, in the `baking` and the `wallet` build: dispatcher, all
handlers including those of the `dev` feature, the upload buffer, the flash records with their wear levelling and checksums, all
operation and consensus parsers, all texts shown and the paging and navigation of reviews. Of the JavaScript
client: all calls, and `getAppInfo` from the answer of the operating system on.

### Evidence for the model

`Verif/Conformance` runs the model on the data with which the authors of the app test it, with real SHA-2, BLAKE2b and
HMAC (`RealHash`). These are tests of the model, not proofs, and no property relies on them.

| Module | Compared with |
|---|---|
| `Screens` | the screenshots of the emulated device in `/repo/zemu/snapshots`, screen by screen: transfer, delegation to a known baker, blind signing, reveal, authorize, query, deauthorize, setup, public key |
| `Menu` | the screenshots of the idle menu |
| `Vectors` | titles and texts of all items for the 80 messages of `/repo/zemu/test-vectors` that name them |
| `Units` | the unit tests of the parsers, number texts, addresses, flash records and commands in `/repo/rust`, the signing sessions of `rust/app/tests/baking.rs` with the recorded messages of a real baker, and the flows of `zemu/tests/baking.test.ts` |

All agree. The remaining differences are listed at the top of `Screens.lean`: on the larger display the system cuts long
texts into numbered parts, and keys are stand-ins since no test fixes a key.

### Simplified

| What | How | Where |
|---|---|---|
| cryptography and base58check hashing | functions of the environment, allowed to fail and to differ between events | `Crypto` |
| base58 | defined (leading zeros, big number), used as the code uses the `bs58` crate | `Format` |
| `nom` | the combinators used, with the error kind dropped | `Nom` |
| exchange buffer | left to the events in `Device`; followed in `Exchange`, for any layout of reviews of at most 126 bytes (their sizes are computed by hand from the types); C80 relates the two | `Exchange` |
| a review that rejects itself while being drawn | what it leaves in the exchange buffer is not followed | `Board.handle` |
| `setjmp` and `longjmp` | as in C, on a stack of which only the activations of `catch_raw` are kept; the macros of the main loop (not in the repository) work as `catch_raw`, which copies them | `Catch` |
| lazily opened records | a read does not keep the position it found; `C93_device_records` shows that the results are those of the code, which does (`Lazy`) | `Store` |
| start of the app | the memory of the app is cleared | `LazyCell.start` |
| power loss | at a flash write, leaving the page in any state; a loss between writes is one with the page unchanged or complete | `Fate` |
| JavaScript environment | `Number`, hashes and base58 are parameters; `Number` gives whole numbers; `Transport.send` as described by its package; of the texts of errors only those for status words | `Client` |
| texts on the screen | in `Device` screens are drawn from the texts, not from the static buffers; C99 shows that in the releases this makes no difference. `Devel` cuts texts of the host at their first zero byte, and leaves out what the bytes after it do | `Zui`, `ZuiX`, `Devel` |
| idle menu | in `Device` only its effect on expert mode; C100 relates it to the buttons | `Dev.step` |
| buttons on the larger display | one press of right or left stands for the presses that go through all parts of a text, which the system draws | `ZuiX`, C110 |
| numbers in the baking tests | levels, rounds and chains are natural numbers; a number that does not fit the bytes it is written to throws | `ZemuTests`, C111 |
| addresses | numbers without wrapping; `pic` of the system moves the addresses of the linked image and no others; everywhere but in `Pic`, constants, tables and methods are those of the source (C109) | `Pic` |
| `u64` write counters | wrap at 2^64 as in a release build; the theorems on records assume fewer writes | `Wear.write` |

### Not modelled

The console screens, USB and the C runtime, the `bolos-impl` bindings
other than those for keys, signatures, hashes, exceptions and flash writes, the `bolos-mock` crate but for its `PIC`, stack use, timing, blinding and other side channels, and
the transport packages of the JavaScript client. Of the build: the syntax of the JSON file with the registry, finding and
reading files, the generated tokens, and the Makefile.

## 4. Status

84 properties are proved, 32 are partial. The partial ones are false of the code in
their full form; the negation is proved with a concrete device history or input, and the part that holds is proved under
a name ending in `_partial`. `MANIFEST.json` says for each what is missing.

## 5. Findings about the code

Each is a theorem or an example; the name is given where there is one.

| Finding | Evidence |
|---|---|
| A block whose Tenderbake fitness has 5 to 8 bytes aborts the baking build. | `C30_short_fitness_aborts` |
| The chain id of a consensus message is never compared; one watermark serves all chains; the test watermark never advances. | `C15_chain_id_is_ignored`, `C15_other_chain_is_signed`, `C49_signing_keeps_test_and_chain` |
| The first Tenderbake message is accepted at any level after an Emmy watermark, so a reset to a level does not protect it. | `C06_tenderbake_not_protected` |
| The reset command lowers the watermark without asking the user. | `C51_reset_without_confirmation` |
| The page index advances before the write: a write that fails with an exception makes an eight-writes-old value current, until the next write that completes or the next restart. | `C16_negation`, `C01_write_exception_rolls_back`, `C16_next_write_partial`, `C116_told` |
| One torn page makes a record impossible to open although the other pages are intact. | `C19_negation` |
| Packets that arrive during a review change the message shown, and a refused request changes the key used. | `C42_other_message_shown`, `C42_other_delegation_shown`, `C43_other_key_used` |
| The pending review is kept at the end of the buffer in which commands arrive: a long command during a review, even one that is refused, replaces it, and a digest of the host's choice can be signed. In the baking build this can be the digest of a second block of the same level and round. | `C80_host_writes_the_review`, `C80_overwritten`, `C98_double_signed` |
| The declared data length is compared with the buffer, not with the bytes received. | `C55_stale_bytes_are_used` |
| The number of review items is truncated to 8 bits: a batch with 255 items announces none. | `C38_negation` |
| Nonce revelations and denunciations contribute no item to a review; the baking build shows only the first operation of a batch. | `C41_negation` |
| The entrypoint of a transfer is not shown; two registry entries share a name. | `C40_entrypoint_negation`, `C56_name_negation` |
| Two names of the baker registry contain characters that are displayed as dots. | `UserRead` in `C57_user_read_the_batch` |
| A text whose length is a multiple of the page size announces one page too many. | `C36_count_exact_multiple` |
| A failed flash copy in an opening packet leaves the upload open with a stale key length; the closing packet then aborts the app. | `C24_failed_opening_witness`, `C30_failed_copy_aborts` |
| `BIP32Path::new` aborts on more than `LEN` components instead of refusing them. | `C23_constructor_negation` |
| After an interrupted reset the full query reports the defaults although the main watermark is set. | `C47_partly_set_device_reports_defaults` |
| A signature request that fails after the watermark write has advanced the watermark. | `C05_durable_before_signature` (order of write and signature) |
| Instruction 0x12 of the baking build signs operations with any key after a review, not only with the authorized one. | model of `command`, C09 is about consensus messages only |
| On the Nano S, in expert mode, pressing both buttons on any page of a review jumps to the approve item. | `Zui.expertJump`; the hypothesis of C37 |
| The legacy key calls of the client return the length byte as part of the key and an address of the wrong bytes. | `C67_legacy_key_is_not_the_key` |
| `legacySign` of the client returns the first 32 bytes of the signature and a zero hash. | `C67_legacy_sign_is_cut` |
| `sig_hash` of the client is not the hash signed for a Tenderbake block. | `C67_sig_hash_differs` |
| `publicKeyToAddress` of the client overwrites the first byte of the key it is given. | `C67_address_changes_the_key` |
| The parity mark of an ECDSA signature is dropped if the system also reports an X above the order. | `C71_parity_lost` |
| Curve448 is sent to the system with the code of Ed448 (not reachable from the app). | `C72_curve448` |
| `serializePath` of the client ignores text after the `m`, takes empty components for 0 and sends `-1'` as 2147483647. | `C68_text_after_m_is_ignored`, `C68_not_refused` |
| An operation with 253 proposals counts no items; on the Nano X and S+ it can be approved with only the branch shown. | `C74_hidden_proposals` |
| Numbers are read into 32 bits seven at a time, and one of 2^28 or more is an error: a transfer of more than 268.435455 tez cannot be displayed, hence not be signed. | `C75_large_amount`, `C76_large_amount` |
| On the Nano X and S+ an item that fails after the first leaves the flow of the system at an index below its first step: no button ever answers the host, and no way to the failing item avoids this. | `C75_lost`, `C75_large_amount`, `C75_large_amount_device`, `C79_large_stuck`, `C79_transfer_stuck` |
| On the Nano S such an item shows an error in the middle of the review, which ends with 0x6984 at the next press of the right button. | `C76_large_amount` |
| `getAppInfo` of the client takes the status word for flags if there are none, and returns answers it cannot read as a success. | `C81_no_flags`, `C81_unknown_format` |
| The wallet app answers calls meant for the baking app with the status word of a rejection; the client says "Transaction rejected" although nobody was asked. | `C82_nobody_was_asked` |
| The documentation lists eight return codes; the app also refuses with 6700, 6984, 6985, 6B00 and 9001. An unknown instruction gives 6986, not the documented 6D00. | `C87_answers`, `C87_reasons` |
| In the development build the key of a blind signing request is replaced before the message is hashed; if hashing fails, the review pending before is signed with the other key. | `C90_hash_failure_swaps_key` |
| In the development build an echo of less than 17 bytes stops the app. | `C91_echo_length` |
| In the development build an unknown request is shown only up to its first zero byte, after whatever is left in the upload buffer, and it ends an upload that is under way. | `C92_cut`, `C92_stale` |
| In the development build on the Nano X and S+, a text of the host with a zero byte and after it a byte that is not UTF-8 makes the app abort when it is drawn again. | `C99_hidden_byte_aborts` |
| The build does not look at the checksums of the addresses in the baker registry: a mistyped address becomes the entry of another account. | `C96_checksum_ignored` |
| One account is in the baker registry under two names; duplicates are removed before the table is sorted. | `C96_two_names` |
| A display test looks only at the first of the texts expected of an item, at the beginning of its title, and not at items it does not mention. The test vectors of the repository list all items with one text each. | `C102_tested`, `C102_surplus` |
| The mock of the display approves reviews without displaying them, so that a test on a computer can get a signature that no user of a device can give. | `C104_unreadable` |
| The fuzz target `hfuzz-parser/apdu.rs` calls `zemu_sys::set_out`, which is defined nowhere. | by reading |
| The script with which the emulator tests sign test vectors presses right 30 times: it waits for ever on a batch with 30 or more screens before the approval (29 items on the larger display). | `C110_tests`, the examples after it |
| The builder of blocks in the baking tests on the emulator takes the round 0 for no round and builds an Emmy block. So no test asks twice for the same Tenderbake item, and a device that signs every Tenderbake message passes them. | `C111_round_zero`, `C111_tests_miss` |
