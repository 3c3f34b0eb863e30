import Verif.Conformance.Base
/-
The screens of the model against the screenshots in /repo/zemu/snapshots, for the reviews of zemu/tests/standard.test.ts
and zemu/tests/baking.test.ts. Directory names: s, bs = Nano S (wallet, baking); x, sp, bsp = larger display. The texts
were read off the pictures. Tests, not proofs.

Differences between the pictures and the model:
* On the larger display the system cuts texts of more than three lines into numbered parts ("Public Key (1/2)"); the
  model has one screen per item (ZuiX), so the reviews with such texts take one press fewer in the model.
* The keys of the model are stand-ins, so the addresses of the device's own keys differ. (How an address is made from
  the hash of a key is compared in Conformance.Units.)
* bs-bakersign-block and bs-bakersign-endorsement are not used by any test of this commit: blocks and endorsements are
  signed without a review.
-/
namespace Tezos.Conformance


/-- zemu/tests/tezos.ts 23: `SAMPLE_TRANSACTION`, entry 6 of zemu/tests/data/samples.json. -/
def transaction : Bytes :=
  hex ("a99b946c97ada0f42c1bdeae0383db7893351232a832d00d0cd716eb6f66e5616c0035e993d8c7aaa42b5e3ccd86a333" ++
    "90ececc73abd904e010a0ae807000035e993d8c7aaa42b5e3ccd86a33390ececc73abd00")

/-- zemu/tests/tezos.ts 34: `KNOWN_DELEGATE`, entry 0 of zemu/test-vectors/delegation.json. -/
def knownDelegate : Bytes :=
  hex ("1bb9a0d1ded53abdfc8add21f55a852b4fd5e661984155fa460a039a4234b9376e009a6090844356d979899622d85ba1" ++
    "602740fcaa848c03b7f50ecc0800ff00cf49f66b9ea137e11818f2a78b4b6fc9895b4e50")

/-- zemu/tests/tezos.ts 24: `SAMPLE_DELEGATION`, entry 0 of zemu/tests/data/samples.json. -/
def delegation : Bytes :=
  hex ("a99b946c97ada0f42c1bdeae0383db7893351232a832d00d0cd716eb6f66e5616e0035e993d8c7aaa42b5e3ccd86a333" ++
    "90ececc73abd904e010a0aff0035e993d8c7aaa42b5e3ccd86a33390ececc73abd")

/-- zemu/tests/tezos.ts 28: `SAMPLE_REVEAL`, entry 1 of zemu/tests/data/samples.json. -/
def reveal : Bytes :=
  hex ("a99b946c97ada0f42c1bdeae0383db7893351232a832d00d0cd716eb6f66e5616b0035e993d8c7aaa42b5e3ccd86a333" ++
    "90ececc73abd904e010a0a00ebcf82872f4942052704e95dc4bfa0538503dbece27414a39b6650bcecbff896")

/-- Snapshots s-sign-transfer-0: thirteen presses, then approval. -/
example : shots Demo.walletApp (dev .small) (upload 0x12 (0x03 :: transaction) ++ turn 13) =
  [.idle,
    two "Operation [1/2]" "BLzyjjHKEKMULtvkp" "SHxuZxx6ei6fpntH2",
    two "Operation [2/2]" "BTkYZiLgs8zLVstvX",
    two "Type" "Transaction",
    two "Source [1/2]" "tz1QZ6KY7d3BuZDT1" "d19dUxoQrtFPN2QJ3",
    two "Source [2/2]" "hn",
    two "Destination" "tz1QZ6KY7d3BuZDT1" "d19dUxoQrtFPN2QJ3",
    two "Destination" "hn",
    two "Amount" "0.001000",
    two "Fee" "0.010000",
    two "Parameters" "no parameters...",
    two "Gas Limit" "10",
    two "Storage Limit" "10",
    two "Counter" "1",
    two "" "APPROVE",
    .idle] := by decide +kernel

/-- Snapshots x-sign-transfer-0: eleven presses, then approval. -/
example : shots Demo.walletApp (dev .large) (upload 0x12 (0x03 :: transaction) ++ turn 11) =
  [.idle,
    two "Please" "review",
    two "Operation" "BLzyjjHKEKMULtvkpSHxuZxx6ei6fpntH2BTkYZiLgs8zLVstvX",
    two "Type" "Transaction",
    two "Source" "tz1QZ6KY7d3BuZDT1d19dUxoQrtFPN2QJ3hn",
    two "Destination" "tz1QZ6KY7d3BuZDT1d19dUxoQrtFPN2QJ3hn",
    two "Amount" "0.001000",
    two "Fee" "0.010000",
    two "Parameters" "no parameters...",
    two "Gas Limit" "10",
    two "Storage Limit" "10",
    two "Counter" "1",
    two "" "APPROVE",
    .idle] := by decide +kernel

/-- Snapshots s-sign-known baker-0: ten presses, then approval. The delegate is shown by name. -/
example : shots Demo.walletApp (dev .small) (upload 0x12 (0x03 :: knownDelegate) ++ turn 10) =
  [.idle,
    two "Operation [1/2]" "BKvVY4VJi769Yo8AB" "5MSgcrqwnqiUerAxZ",
    two "Operation [2/2]" "6yV7aLPH5YRivrTRx",
    two "Type" "Delegation",
    two "Source [1/2]" "tz1ZiJS5gAXD5nrBt" "Ud2YW3BaELJAPou1f",
    two "Source [2/2]" "mH",
    two "Delegation" "Obsidian",
    two "Fee" "0.000396",
    two "Gas Limit" "1100",
    two "Storage Limit" "0",
    two "Counter" "244407",
    two "" "APPROVE",
    .idle] := by decide +kernel

/-- Snapshots x-sign-known baker-0: nine presses, then approval. -/
example : shots Demo.walletApp (dev .large) (upload 0x12 (0x03 :: knownDelegate) ++ turn 9) =
  [.idle,
    two "Please" "review",
    two "Operation" "BKvVY4VJi769Yo8AB5MSgcrqwnqiUerAxZ6yV7aLPH5YRivrTRx",
    two "Type" "Delegation",
    two "Source" "tz1ZiJS5gAXD5nrBtUd2YW3BaELJAPou1fmH",
    two "Delegation" "Obsidian",
    two "Fee" "0.000396",
    two "Gas Limit" "1100",
    two "Storage Limit" "0",
    two "Counter" "244407",
    two "" "APPROVE",
    .idle] := by decide +kernel

/-- Snapshots s-sign-blind-hello-0: two presses, then approval. -/
example : shots Demo.walletApp (dev .small) (upload 0x12 (0x05 :: ascii "hello@zondax.ch") ++ turn 2) =
  [.idle,
    two "Sign Michelson" "5a3862a47629c2992" "f2d8196b079e095fb",
    two "Sign Michelson" "28c0a3cdea591d541" "218e8e727b091",
    two "" "APPROVE",
    .idle] := by decide +kernel

/-- The baking app once the key is authorized (zemu/tests/baking.test.ts 560-575). -/
def authorized (d : Display) : Dev :=
  ((dev d).run Demo.bakingApp (([Demo.apdu 0x06 0 0 [0, 0, 0, 0], Demo.apdu 0xA1 1 0 path] ++ turn 3).map (env, ·))).1

/-- Snapshots bs-sign-delegation-0: eleven presses, then approval. -/
example : shots Demo.bakingApp (authorized .small) (upload 0xAF (0x03 :: delegation) ++ turn 11) =
  [.idle,
    two "Operation [1/2]" "BLzyjjHKEKMULtvkp" "SHxuZxx6ei6fpntH2",
    two "Operation [2/2]" "BTkYZiLgs8zLVstvX",
    two "Type" "Delegation",
    two "Source [1/2]" "tz1QZ6KY7d3BuZDT1" "d19dUxoQrtFPN2QJ3",
    two "Source [2/2]" "hn",
    two "Delegation [1/2]" "tz1QZ6KY7d3BuZDT1" "d19dUxoQrtFPN2QJ3",
    two "Delegation [2/2]" "hn",
    two "Fee" "0.010000",
    two "Gas Limit" "10",
    two "Storage Limit" "10",
    two "Counter" "1",
    two "" "APPROVE",
    .idle] := by decide +kernel

/-- Snapshots bsp-sign-delegation-0: nine presses, then approval. -/
example : shots Demo.bakingApp (authorized .large) (upload 0xAF (0x03 :: delegation) ++ turn 9) =
  [.idle,
    two "Please" "review",
    two "Operation" "BLzyjjHKEKMULtvkpSHxuZxx6ei6fpntH2BTkYZiLgs8zLVstvX",
    two "Type" "Delegation",
    two "Source" "tz1QZ6KY7d3BuZDT1d19dUxoQrtFPN2QJ3hn",
    two "Delegation" "tz1QZ6KY7d3BuZDT1d19dUxoQrtFPN2QJ3hn",
    two "Fee" "0.010000",
    two "Gas Limit" "10",
    two "Storage Limit" "10",
    two "Counter" "1",
    two "" "APPROVE",
    .idle] := by decide +kernel

/-- Snapshots bs-sign-reveal-0: eleven presses, then approval. -/
example : shots Demo.bakingApp (authorized .small) (upload 0xAF (0x03 :: reveal) ++ turn 11) =
  [.idle,
    two "Operation [1/2]" "BLzyjjHKEKMULtvkp" "SHxuZxx6ei6fpntH2",
    two "Operation [2/2]" "BTkYZiLgs8zLVstvX",
    two "Type" "Revelation",
    two "Source [1/2]" "tz1QZ6KY7d3BuZDT1" "d19dUxoQrtFPN2QJ3",
    two "Source [2/2]" "hn",
    two "Public Key [1/2]" "edpkvS5QFv7KRGfa3" "b87gg9DBpxSm3NpSw",
    two "Public Key [2/2]" "njhUjNBQrRUUR66F7" "C9g",
    two "Fee" "0.010000",
    two "Gas Limit" "10",
    two "Storage Limit" "10",
    two "Counter" "1",
    two "" "APPROVE",
    .idle] := by decide +kernel

/-- Everything on the display but the address of the device's own key, which is a stand-in here. -/
def texts (l : List Screen) : List Screen :=
  l.map fun s => match s with
    | .review k _ _ => if k.take 7 = ascii "Address" then .review k [] [] else s
    | s => s

/-- Snapshots bs-authorize-0, bs-full-cycle-query-with-curve-0 and bs-full-cycle-deauthorize-0: three presses each, then
approval. -/
example : texts (shots Demo.bakingApp (dev .small) (Demo.apdu 0xA1 1 0 path :: turn 3 ++
      Demo.apdu 0xAD 1 0 [] :: turn 3 ++ Demo.apdu 0xAC 1 0 [] :: turn 3)) =
  [two "Type" "Authorize Baking",
    two "Address [1/2]" "",
    two "Address [2/2]" "",
    two "" "APPROVE",
    .idle,
    two "Type" "Query Authorized",
    two "Address [1/2]" "",
    two "Address [2/2]" "",
    two "" "APPROVE",
    .idle,
    two "Type" "DeAuthorize Bakin" "g",
    two "Address [1/2]" "",
    two "Address [2/2]" "",
    two "" "APPROVE",
    .idle] := by decide +kernel

/-- Snapshots bs-setup-0: six presses, then approval. -/
example : texts (shots Demo.bakingApp (dev .small)
      (Demo.apdu 0x0A 0 0 (hex "f5f466ab" ++ be32 643302 ++ be32 42 ++ path) :: turn 6)) =
  [two "Type" "Setup Baking",
    two "Address [1/2]" "",
    two "Address [2/2]" "",
    two "Chain" "NetXz969SFaFn8k",
    two "Main Chain HWM" "643302",
    two "Test Chain HWM" "42",
    two "" "APPROVE",
    .idle] := by decide +kernel

/-- Snapshots bsp-setup-0: six presses, then approval. -/
example : texts (shots Demo.bakingApp (dev .large)
      (Demo.apdu 0x0A 0 0 (hex "f5f466ab" ++ be32 643302 ++ be32 42 ++ path) :: turn 6)) =
  [two "Please" "review",
    two "Type" "Setup Baking",
    two "Address" "",
    two "Chain" "NetXz969SFaFn8k",
    two "Main Chain HWM" "643302",
    two "Test Chain HWM" "42",
    two "" "APPROVE",
    .idle] := by decide +kernel

/-- Snapshots bs-pubkey-0: two presses, then approval. -/
example : texts (shots Demo.bakingApp (dev .small) (Demo.apdu 0x11 1 0 path :: turn 2)) =
  [two "Address [1/2]" "",
    two "Address [2/2]" "",
    two "" "APPROVE",
    .idle] := by decide +kernel

end Tezos.Conformance
