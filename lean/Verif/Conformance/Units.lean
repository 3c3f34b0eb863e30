import Verif.Conformance.Base
import Verif.Consensus
import Verif.Bakers
import Verif.Devel
/-
The unit and integration tests of /repo/rust, run on the model. Where a test of the code goes through the mock of
bolos-mock, whose Edwards keys have 32 bytes instead of the 33 of the device, the length of the key is that of the
device here. Tests, not proofs.
-/
namespace Tezos.Conformance

def success : Bytes := [0x90, 0x00]

/-! ### rust/app/src/parser.rs 136-260 -/

/-- The address of the parser tests. -/
def somePkh : Pkh := ⟨.bip32Ed25519, hex "35e993d8c7aaa42b5e3ccd86a33390ececc73abd"⟩

/-- A number as the parser keeps it. -/
def num (s : String) : Zarith := ⟨hex s, none⟩

example : (publicKeyHash (hex "0035e993d8c7aaa42b5e3ccd86a33390ececc73abd")).toOption = some ([], somePkh) ∧
    (pkhText real somePkh).toOption = some (ascii "tz1QZ6KY7d3BuZDT1d19dUxoQrtFPN2QJ3hn") := by decide +kernel

example : (publicKeyHash (hex "0035e993d8c7aaa42b5e3ccd86a333")).toOption = none := by decide +kernel

example : (publicKey (hex "00ebcf82872f4942052704e95dc4bfa0538503dbece27414a39b6650bcecbff896")).toOption =
      some ([], (.bip32Ed25519, hex "ebcf82872f4942052704e95dc4bfa0538503dbece27414a39b6650bcecbff896")) ∧
    (keyText real .bip32Ed25519 (hex "ebcf82872f4942052704e95dc4bfa0538503dbece27414a39b6650bcecbff896")).toOption =
      some (ascii "edpkvS5QFv7KRGfa3b87gg9DBpxSm3NpSwnjhUjNBQrRUUR66F7C9g") := by decide +kernel

example : (publicKey (hex "00ebcf82872f4942052704e95dc4bfa0538503dbece27414a39b")).toOption = none := by decide +kernel

example : (boolean [255]).toOption = some ([], true) ∧ (boolean [0]).toOption = some ([], false) ∧
    (boolean [123]).toOption = some ([], false) := by decide +kernel

/-- Length, sign and value of a number. -/
def read (signed : Bool) (bits : Nat) (b : Bytes) : Option (Nat × Option Bool × Bool × Nat) :=
  match Zarith.fromBytes signed b with
  | .ok (_, z) => (z.readAs bits).map fun r => (z.bytes.length, z.isNegative, r.1, r.2)
  | .error _ => none

example : read false usizeBits [0x81, 0x11, 0x33] = some (2, none, false, 0x881) := by decide +kernel
example : read false usizeBits [0x0a] = some (1, none, false, 0x0a) := by decide +kernel
example : read false 64 [0x8a, 0x90, 0xf2, 0xe4, 0x88, 0x00] = some (6, none, false, 0x8C9C880A) := by decide +kernel
example : read true 64 [0xc3, 0x23] = some (2, some true, true, 0x8C3) := by decide +kernel
example : read true 64 [0x83, 0x23] = some (2, some false, false, 0x8C3) := by decide +kernel

/-! ### rust/app/src/parser/operations.rs and rust/app/src/parser/operations -/

example : (ContractID.fromBytes (hex "000035e993d8c7aaa42b5e3ccd86a33390ececc73abd")).toOption =
    some ([], .implicit somePkh) := by decide +kernel

example : (ContractID.fromBytes (hex "016a7d4a43f51be0934a441fba4f13f9beaa47575100")).toOption =
      some ([], .originated (hex "6a7d4a43f51be0934a441fba4f13f9beaa475751")) ∧
    (ContractID.text real (.originated (hex "6a7d4a43f51be0934a441fba4f13f9beaa475751"))).toOption =
      some (ascii "KT1JHqHQdHSgWBKo6H4UfG8dw3JnZSyjGkHA") := by decide +kernel

/-- The message of the test `operations`. -/
def threeTransfers : Bytes :=
  hex ("6c0035e993d8c7aaa42b5e3ccd86a33390ececc73abd904e010a0ae807000035e993d8c7aaa42b5e3ccd86a33390ececc73abd" ++
    "ff02000000070a000000020202" ++
    "6c0035e993d8c7aaa42b5e3ccd86a33390ececc73abd904e010a0ae807016a7d4a43f51be0934a441fba4f13f9beaa4757510000" ++
    "6c0035e993d8c7aaa42b5e3ccd86a33390ececc73abd904e010a0ae807016a7d4a43f51be0934a441fba4f13f9beaa47575100" ++
    "ff03000000290100000024747a31515a364b5937643342755a4454316431396455786f51727446504e32514a33686e")

def isTransfer : Op → Bool
  | .transfer _ => true
  | _ => false

example : (parseOps threeTransfers).toOption.map (·.map isTransfer) = some [true, true, true] ∧
    (branchText real (hex "a99b946c97ada0f42c1bdeae0383db7893351232a832d00d0cd716eb6f66e561")).toOption =
      some (ascii "BLzyjjHKEKMULtvkpSHxuZxx6ei6fpntH2BTkYZiLgs8zLVstvX") := by decide +kernel

/-- The numbers of the operations below. -/
def someManager : Manager := ⟨somePkh, num "904e", num "01", num "0a", num "0a"⟩

example : (Ballot.fromBytes (hex ("0035e993d8c7aaa42b5e3ccd86a33390ececc73abdfffffed4" ++
      "3e5e3a606afab74a59ca09e333633e2770b6492c5e594455b71e9a2f0ea92afb00"))).toOption =
    some ([], ⟨somePkh, UInt32.ofNat (2 ^ 32 - 300),
      hex "3e5e3a606afab74a59ca09e333633e2770b6492c5e594455b71e9a2f0ea92afb", .yay⟩) := by decide +kernel

example : (Delegation.fromBytes (hex ("0035e993d8c7aaa42b5e3ccd86a33390ececc73abd904e010a0aff" ++
      "0035e993d8c7aaa42b5e3ccd86a33390ececc73abddeeabeef"))).toOption =
    some (hex "deeabeef", ⟨someManager, some somePkh⟩) := by decide +kernel

example : (EndorsementWithSlot.fromBytes (hex ("00000027" ++
      "a99b946c97ada0f42c1bdeae0383db7893351232a832d00d0cd716eb6f66e561" ++ "00fffffed40001007b"))).toOption =
    some ([], ⟨hex "a99b946c97ada0f42c1bdeae0383db7893351232a832d00d0cd716eb6f66e561",
      UInt32.ofNat (2 ^ 32 - 300), [0, 1], 123⟩) := by decide +kernel

example : (Endorsement.fromBytes (hex "fffffed4")).toOption = some ([], UInt32.ofNat (2 ^ 32 - 300)) := by
  decide +kernel

example : (Proposals.fromBytes (hex ("0035e993d8c7aaa42b5e3ccd86a33390ececc73abd000063ce00000040" ++
      "3e5e3a606afab74a59ca09e333633e2770b6492c5e594455b71e9a2f0ea92afb" ++
      "3e5e3a606afab74a59ca09e333633e2770b6492c5e594455b71e9a2f0ea92afb"))).toOption.map
        (fun r => (r.1, r.2.source, r.2.period, r.2.proposals.length)) = some ([], somePkh, 25550, 2) := by
  decide +kernel

example : (Reveal.fromBytes (hex ("0035e993d8c7aaa42b5e3ccd86a33390ececc73abd904e010a0a" ++
      "00ebcf82872f4942052704e95dc4bfa0538503dbece27414a39b6650bcecbff896"))).toOption =
    some ([], ⟨someManager, .bip32Ed25519,
      hex "ebcf82872f4942052704e95dc4bfa0538503dbece27414a39b6650bcecbff896"⟩) := by decide +kernel

/-- `public_key_base58`: the lengths of the texts of keys. -/
def keyTextLength (c : Curve) (k : Bytes) : Option Nat := (keyText real c k).toOption.map List.length

example : keyTextLength .bip32Ed25519 (List.replicate 32 0) = some 54 ∧
    keyTextLength .bip32Ed25519 (List.replicate 32 0xff) = some 54 ∧
    keyTextLength .secp256k1 (List.replicate 33 0) = some 55 ∧
    keyTextLength .secp256k1 (List.replicate 33 0xff) = some 55 ∧
    keyTextLength .secp256r1 (List.replicate 33 0) = some 55 ∧
    keyTextLength .secp256r1 (List.replicate 33 0xff) = some 55 := by decide +kernel

example : (SeedNonceRevelation.fromBytes (hex "000063ce" ++ List.replicate 32 0xff)).toOption =
    some ([], (25550, List.replicate 32 0xff)) := by decide +kernel

example : (Entrypoint.fromBytes [0]).toOption = some ([], .default) ∧
    (Entrypoint.fromBytes [1]).toOption = some ([], .root) ∧ (Entrypoint.fromBytes [2]).toOption = some ([], .do_) ∧
    (Entrypoint.fromBytes [3]).toOption = some ([], .setDelegate) ∧
    (Entrypoint.fromBytes [4]).toOption = some ([], .removeDelegate) ∧
    (Entrypoint.fromBytes [0xff, 3, 0x61, 0x62, 0x63, 0xaa]).toOption = some ([0xaa], .custom (ascii "abc")) ∧
    (Entrypoint.fromBytes [0xff, 10, 0x61, 0x62]).toOption = none := by decide +kernel

example : (Parameters.fromBytes (hex "0000000002abcdaa")).toOption = some ([0xaa], ⟨.default, [0xab, 0xcd]⟩) ∧
    (Parameters.fromBytes (hex "02000000070a000000020202")).toOption = some ([], ⟨.do_, hex "0a000000020202"⟩) ∧
    (Parameters.fromBytes (hex "000000000aabcd")).toOption = none := by decide +kernel

example : (Transfer.fromBytes (hex ("0035e993d8c7aaa42b5e3ccd86a33390ececc73abd904e010a0ae807" ++
      "000035e993d8c7aaa42b5e3ccd86a33390ececc73abd00deeabeef"))).toOption =
    some (hex "deeabeef", ⟨someManager, num "e807", .implicit somePkh, none⟩) := by decide +kernel

example : (Transfer.fromBytes (hex ("0035e993d8c7aaa42b5e3ccd86a33390ececc73abd904e010a0ae807" ++
      "000035e993d8c7aaa42b5e3ccd86a33390ececc73abdff02000000070a000000020202"))).toOption =
    some ([], ⟨someManager, num "e807", .implicit somePkh, some ⟨.do_, hex "0a000000020202"⟩⟩) := by decide +kernel

example : (Transfer.fromBytes (hex "0035e993d8c7aaa42b5e3ccd86a33390ececc73abd904e01deeabeef")).toOption = none := by
  decide +kernel

/-! ### rust/app/src/handlers/utils.rs: `intstr_to_fpstr_inplace` -/

/-- The text, given a buffer with room for the point. -/
def point (s : String) (decimals : Nat) : Option Bytes :=
  (intstrToFpstr (ascii s ++ List.replicate (decimals + 2) 0) decimals).toOption


example : [point "1" 0, point "123" 0, point "123" 5, point "1234" 5, point "12345" 5,
      point "123456" 5, point "1234567" 5, point "12345" 2, point "12" 0, point "12" 1,
      point "012" 1, point "0012345" 3, point "9" 6, point "0" 0, point "00" 0,
      point "0000" 0, point "00001" 0, point "000011" 0, point "10000" 0, point "" 0,
      point "" 1, point "" 2, point "" 5, point "" 10] =
    [ascii "1", ascii "123", ascii "0.00123", ascii "0.01234", ascii "0.12345",
      ascii "1.23456", ascii "12.34567", ascii "123.45", ascii "12", ascii "1.2",
      ascii "1.2", ascii "12.345", ascii "0.000009", ascii "0", ascii "0",
      ascii "0", ascii "1", ascii "11", ascii "10000", ascii "0",
      ascii "0.0", ascii "0.00", ascii "0.00000", ascii "0.0000000000"].map some := by decide +kernel

/-! ### rust/app/src/handlers/public_key.rs: `check_bs58` -/

example : (Addr.fromHash real (hex "c860be673ae47ec549f9b5a01a8ccb657be75b6a") .ed25519).bind
      (fun a => a.base58.toOption) = some (ascii "tz1duXjMpT43K7F1nQajzH5oJLTytLUNxoTZ") := by decide +kernel

/-! ### rust/app/src/handlers/baking.rs: `known_delegation` -/

example : bakerLookup prefixTZ1 (hex "401be3ad87a815b67208c4b59726ff41ceccbafc") = some (ascii "Baking Tacos") := by
  decide +kernel

/-! ### rust/app/src/handlers/baking.rs: the endorsement data -/

/-- Kind, chain, level and round. -/
def endorsement (m : Bytes) : Option (Bool × Nat × Nat × Option Nat) :=
  match EndorsementData.parse m with
  | .ok (_, .emmy e) => some (false, e.chainId.toNat, e.level.toNat, none)
  | .ok (_, .tenderbake e) => some (true, e.chainId.toNat, e.level.toNat, some e.round.toNat)
  | .error _ => none

example : endorsement (hex "00000001" ++ List.replicate 32 0 ++ hex "000000000f") = some (false, 1, 15, none) := by
  decide +kernel

example : endorsement (hex "00000001" ++ List.replicate 32 0 ++ hex "1400000000000f0000002a" ++
    List.replicate 32 0) = some (true, 1, 15, some 42) := by decide +kernel

example : endorsement (hex "00000001" ++ List.replicate 32 0 ++ hex "1500000000000f0000002a" ++
    List.replicate 32 0) = some (true, 1, 15, some 42) := by decide +kernel

/-! ### rust/app/src/handlers/hwm.rs, version.rs, dispatcher.rs, hmac.rs and public_key.rs: single commands -/

example : replies Demo.bakingApp (dev .small) [Demo.apdu 0x06 0 0 (be32 420), Demo.apdu 0x0B 0 0 []] =
    [success, be32 420 ++ be32 420 ++ be32 0x7A06A770 ++ success] := by decide +kernel

example : replies Demo.bakingApp (dev .small) [Demo.apdu 0x06 0 0 (be32 0), Demo.apdu 0x08 0 0 []] =
    [success, be32 0 ++ success] := by decide +kernel

/-- `trash_01`. -/
example : replies Demo.bakingApp (dev .small) [.apdu (hex "80060000040000002a" ++ List.replicate 251 0) 9] =
    [success] := by decide +kernel

/-- `apdu_too_short` and `apdu_invalid_cla`. -/
example : replies Demo.walletApp (dev .small) [.apdu (List.replicate 260 0) 0, .apdu (List.replicate 260 0) 5] =
    [[0x67, 0x00], [0x6E, 0x00]] := by decide +kernel

/-- The number of bytes in the answers to the two version commands. -/
example : (replies Demo.walletApp (dev .small) [Demo.apdu 0x10 0 0 [], Demo.apdu 0x00 0 0 []]).map List.length =
    [1 + 4 + 4 + 2, 4 + 2] := by decide +kernel

/-- `apdu_hmac`: the number of bytes received is 5, the path lies beyond it in the exchange buffer. -/
example : (replies Demo.bakingApp (dev .small)
      [.apdu ([0x80, 0x0E, 0, 0, 17] ++ path ++ ascii "zondax.ch" ++ List.replicate 229 0) 5]).map List.length =
    [32 + 2] := by decide +kernel

/-- `apdu_legacy_get_public_key` and `freeze_with_tezos_client`, with the 33 bytes of the device. -/
example : (replies Demo.walletApp (dev .small)
      [.apdu ([0x80, 0x02, 0, 0, 17] ++ path ++ List.replicate 238 0) 5,
       .apdu (hex "8002000009028000002c800006c1" ++ List.replicate 246 0) 5]).map List.length =
    [1 + 33 + 2, 1 + 33 + 2] := by decide +kernel

/-! ### rust/bolos/src/flash_slot.rs -/

/-- A record after some writes. -/
def written (n : Nat) (ps : List Bytes) : Option Wear :=
  (Wear.new (freshPages n)).toOption.map fun w => ps.foldl (fun w p => (w.write .done p).1) w

def page (b : UInt8) : Bytes := List.replicate 52 b

/-- `Wear::idx` and the counter. -/
def position (w : Wear) : Nat × Nat := (w.idx % w.pages.length, w.idx)

/-- `macro_works`, `idx_increase`, `idx_loop`, `counter_increase`. -/
example : (written 2 []).map (fun w => (position w, w.pages.length)) = some ((0, 0), 2) ∧
    (written 5 [page 42]).map position = some (1, 1) ∧ (written 2 [page 42]).map position = some (1, 1) ∧
    (written 2 [page 42, page 24]).map position = some (0, 2) ∧
    (written 2 [page 0, page 1, page 2]).map position = some (1, 3) := by decide +kernel

/-- `read_back`, `no_uninitialized_read`, `format`. -/
example : (written 1 [page 42]).bind (·.read.toOption) = some (page 42) ∧
    (written 1 []).map (·.read.toOption) = some none ∧
    (written 1 [page 42, page 24]).map (·.format.read.toOption) = some none := by decide +kernel

/-! ### rust/bolos-common/src/bip32.rs -/

example : (Path.read 6 (Path.serialize [1, 2, 3, 4, 5, 6])).toOption = some [1, 2, 3, 4, 5, 6] := by decide +kernel

/-! ### rust/app/tests/baking.rs

Watermarks reset to 0, the key authorized (approved on the display), then messages signed in packets of 250 bytes. -/

def started : List Event := [Demo.apdu 0x06 0 0 [0, 0, 0, 0], Demo.apdu 0xA1 1 0 path] ++ turn 3

/-- The test `zemu_tb_block_blob`. -/
example : statuses Demo.bakingApp (dev .small) (started ++ upload 0xAF
      (hex "11000000000000007b2a" ++ List.replicate 73 0 ++ hex "000000090202020202000001c8")) =
    [success, success, success, success] := by decide +kernel

/-- The test `zemu_endorsement_blob`: an Emmy endorsement, a preendorsement and an endorsement. -/
example : statuses Demo.bakingApp (dev .small) (started ++
      upload 0xAF (hex "02" ++ List.replicate 37 0 ++ hex "0000007b") ++
      upload 0xAF (hex "12" ++ List.replicate 36 0 ++ hex "14000000001092000001c8" ++ List.replicate 32 0) ++
      upload 0xAF (hex "13" ++ List.replicate 36 0 ++ hex "15000000001092000001c8" ++ List.replicate 32 0)) =
    List.replicate 8 success := by decide +kernel

/-- rust/app/tests/signatory_samples.bin: what a baker signed within a minute. -/
def signatorySamples : List Bytes := [
  -- 2022-06-08T22:34:58Z, level 662364, endorsement
  hex ("13af1864d9e228cb0cf1ac605fbfd6819806e6c21d0b57fafccfa027e3b56cd26ee989a52d150005000a1b5c00000000" ++
    "676094af99ed9154f7fa230d66c216f970002168d517f0ae47aebea0438f0db7"),
  -- 2022-06-08T22:35:12Z, level 662365, block
  hex ("11af1864d9000a1b5d0274e6d08f92faa0d3adf22dc5535d3c9c87fdd3e96995f87f3d9d084e2c7958a30000000062a1" ++
    "241e040dee5a1b6c4387292ab998c84e8bb97ed5361c32980f57a6ff14ff23545a3c8b00000021000000010200000004" ++
    "000a1b5d0000000000000004ffffffff0000000400000000caa9a0943e4b415e7c66eb22c19b0045a6e63c96bcda9852" ++
    "fc8d247502c1f67c2eaddd98de65003faeace1444c8c469269e4489c71904cad0849fd0edb2b6145000000006d9cfa35" ++
    "9a010c000000"),
  -- 2022-06-08T22:35:13Z, level 662365, preendorsement
  hex ("12af1864d974e6d08f92faa0d3adf22dc5535d3c9c87fdd3e96995f87f3d9d084e2c7958a3140000000a1b5d00000000" ++
    "2eaddd98de65003faeace1444c8c469269e4489c71904cad0849fd0edb2b6145"),
  -- 2022-06-08T22:35:15Z, level 662365, endorsement
  hex ("13af1864d974e6d08f92faa0d3adf22dc5535d3c9c87fdd3e96995f87f3d9d084e2c7958a3150000000a1b5d00000000" ++
    "2eaddd98de65003faeace1444c8c469269e4489c71904cad0849fd0edb2b6145"),
  -- 2022-06-08T22:35:25Z, level 662366, block
  hex ("11af1864d9000a1b5e02bd669bb813e6ad1c63c922559cdda5492f2a71ae0b98ec4775be84efb3f7e8b70000000062a1" ++
    "242d04408d795d8c096861d8c49052014278885b3aa8b56a1ea1e7a86a28685ac133ba00000021000000010200000004" ++
    "000a1b5e0000000000000004ffffffff00000004000000009b4b8d6347ff6506ef8744942460875a0d6ec27e3c0199a7" ++
    "1492aa9908b78c9142a9fae000986fe4c656feb33c9ac9c42d6ce6b922523f4477d655025286798a000000006d9cfa35" ++
    "124c03000000"),
  -- 2022-06-08T22:35:26Z, level 662366, preendorsement
  hex ("12af1864d9bd669bb813e6ad1c63c922559cdda5492f2a71ae0b98ec4775be84efb3f7e8b7140000000a1b5e00000000" ++
    "42a9fae000986fe4c656feb33c9ac9c42d6ce6b922523f4477d655025286798a")]

/-- The test `baking_flow`: every message is signed. -/
example : statuses Demo.bakingApp (dev .small) (started ++ signatorySamples.flatMap (upload 0xAF)) =
    List.replicate 14 success := by decide +kernel

/-! ### zemu/tests/baking.test.ts -/

/-- `get_endorsement_info` for Emmy, with the byte that the client puts before it. -/
def jsEmmy (level : UInt32) : Bytes := [0x02] ++ List.replicate 36 0 ++ [0] ++ be32 level

/-- `get_endorsement_info` otherwise. -/
def jsEndorsement (magic tag : UInt8) (level round : UInt32) : Bytes :=
  [magic] ++ List.replicate 36 0 ++ [tag, 0, 0] ++ be32 level ++ be32 round ++ List.replicate 32 0

/-- `get_blocklevel_info` without a round (or with round 0). -/
def jsBlock (level : UInt32) : Bytes :=
  [0x01] ++ List.replicate 4 0 ++ be32 level ++ [42] ++ List.replicate 73 0 ++ be32 5 ++ List.replicate 5 1

/-- `get_blocklevel_info` with a round. -/
def jsRound (level round : UInt32) : Bytes :=
  [0x11] ++ List.replicate 4 0 ++ be32 level ++ [42] ++ List.replicate 73 0 ++ be32 9 ++ List.replicate 5 2 ++
    be32 round

/-- The answers to signing requests after `started`: only those to the last packets. -/
def signed (ms : List Bytes) : List Bool :=
  ((statuses Demo.bakingApp (dev .small) (started ++ ms.flatMap (upload 0xAF))).drop 2).zipIdx.filterMap
    fun r => if r.2 % 2 = 1 then some (decide (r.1 = success)) else none

/-- "Sign endorsement", "Sign blocklevel": lines 360-420 and 480-540. -/
example : signed [jsEmmy 2] = [true] ∧ signed [jsBlock 123456] = [true] ∧
    signed [jsEndorsement 0x13 21 2 0] = [true] := by decide +kernel

/-- "Sign blocklevel then endorse": the second block has the level of the first and must be refused. -/
example : signed [jsBlock 5, jsBlock 5, jsEmmy 5] = [true, false, true] := by decide +kernel

/-- The same for Tenderbake: the round is higher, then a preendorsement and an endorsement. -/
example : signed [jsBlock 5, jsBlock 5, jsRound 5 1, jsEndorsement 0x12 20 5 1, jsEndorsement 0x13 21 5 1] =
    [true, false, true, true, true] := by decide +kernel

/-- Setting up and reading back the watermarks: lines 284-320. -/
example : (replies Demo.bakingApp (dev .small) (Demo.apdu 0x0A 0 0 (hex "f5f466ab" ++ be32 643302 ++ be32 42 ++ path) ::
      turn 6 ++ [Demo.apdu 0x0B 0 0 []])).drop 1 =
    [be32 643302 ++ be32 42 ++ hex "f5f466ab" ++ success] := by decide +kernel

/-- "Authorize/Deauthorize full-cycle": lines 215-280. After removing the authorization the query fails. -/
example : (statuses Demo.bakingApp (dev .small) (Demo.apdu 0xA1 1 0 path :: turn 3 ++ Demo.apdu 0xAD 1 0 [] :: turn 3 ++
      Demo.apdu 0xAC 1 0 [] :: turn 3 ++ Demo.apdu 0xAD 0 0 [] :: Demo.apdu 0xA1 1 0 path :: turn 3 ++
      [Demo.apdu 0xAD 0 0 []])).map (fun r => decide (r = success)) =
    [true, true, true, false, true, true] := by decide +kernel

end Tezos.Conformance
