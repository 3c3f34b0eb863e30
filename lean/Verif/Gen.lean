import Verif.Zuit
/-
The programs in zemu/test-vectors-gen that make the test vectors in zemu/test-vectors, which the display tests of
`Verif/Zuit.lean` read (`zemu/test-vectors/*.json`): an operation, and the items that the review of it must have. What a
generator learns from the emulator, from a node and from the random number generator is a parameter. The forging of the
operation, which a node does, is specified in `Verif/Spec/Forging.lean`.
-/
namespace Tezos

/-! ### Numbers of JavaScript -/

/-- A number that is not negative: the fraction `num / den`. Infinity is not modelled, nor is the precision lost below
`2 ^ -1022`. -/
structure Double where
  num : Nat
  den : Nat
  deriving DecidableEq, Repr

/-- The integer next to `x / y`, the even one of two. -/
def roundHalfEven (x y : Nat) : Nat :=
  if 2 * (x % y) < y then x / y
  else if y < 2 * (x % y) then x / y + 1
  else x / y + x / y % 2

/-- The result of an operation whose exact result is `a / b`: rounded to 53 binary digits, to the even one of two.
ECMA-262 6.1.6.1: numbers are IEEE 754 doubles. The exact result is scaled by a power of two to an integer part of 53
binary digits. -/
def toDouble (a b : Nat) : Double :=
  let up := 52 + b.log2 - a.log2
  let down := a.log2 - (52 + b.log2)
  -- the quotient of numbers of `k` and `l` binary digits has `k - l` or `k - l + 1`
  let up := if a * 2 ^ up < 2 ^ 52 * (b * 2 ^ down) then up + 1 else up
  ⟨roundHalfEven (a * 2 ^ up) (b * 2 ^ down) * 2 ^ down, 2 ^ up⟩

/-- Division, for a divisor that is not zero. -/
def Double.div (x y : Double) : Double := toDouble (x.num * y.den) (x.den * y.num)

/-- Multiplication. -/
def Double.mul (x y : Double) : Double := toDouble (x.num * y.num) (x.den * y.den)

/-- ECMA-262 21.1.3.3: `toFixed` with `d > 0` decimals, for numbers below `10 ^ 21`: the integer next to `10 ^ d` times
the number, the larger of two, with a point before the last `d` of at least `d + 1` digits. -/
def Double.toFixed (x : Double) (d : Nat) : Bytes :=
  let n := (2 * x.num * 10 ^ d + x.den) / (2 * x.den)
  let t := decimal n
  let t := List.replicate (d + 1 - t.length) 48 ++ t
  t.take (t.length - d) ++ 46 :: t.drop (t.length - d)

/-- ECMA-262 19.2.5: `Number.parseInt` of a text without sign or leading spaces, in base 10: its leading digits. `none`
is NaN. -/
def jsParseInt (t : Bytes) : Option Double :=
  match t.takeWhile fun c => decide (48 ≤ c ∧ c ≤ 57) with
  | [] => none
  | ds => some (toDouble (ds.foldl (fun a c => a * 10 + (c.toNat - 48)) 0) 1)

/-! ### zemu/test-vectors-gen/common.ts -/

/-- zemu/test-vectors-gen/common.ts 1: `MUTEZ_MULT`. -/
def mutezMult : Double := ⟨1000000, 1⟩

/-- zemu/test-vectors-gen/common.ts 7-9: `ledger_fmt`. -/
def ledgerFmt (input : Bytes) : List Bytes := [input]

/-- zemu/test-vectors-gen/common.ts 12-18: `ledger_fmt_currency`. -/
def ledgerFmtCurrency (input : Bytes) : List Bytes :=
  match jsParseInt input with
  | none => [ascii "NaN"]
  | some x => [(x.div mutezMult).toFixed 6]

/-! ### The generators -/

/-- What `Tezos.estimate` answers. -/
structure Estimate where
  suggestedFeeMutez : Nat
  gasLimit : Nat
  storageLimit : Nat
  deriving DecidableEq, Repr

/-- What a generator learns. Texts are ASCII, as they come. -/
structure World where
  /-- `getAddress` of the emulated device, for three of its keys -/
  ed : Bytes
  k1 : Bytes
  p256 : Bytes
  /-- `Tezos.signer.publicKeyHash()` and `Tezos.signer.publicKey()` -/
  source : Bytes
  publicKey : Bytes
  /-- the hash of the last block -/
  hash : Bytes
  /-- the counter of the source -/
  counter : Option Bytes
  /-- none if the account is revealed already; only the generator of revelations asks for this -/
  estimate : Option Estimate
  /-- the bytes from `Math.random` -/
  random : Bytes
  /-- `createHash('sha256')` -/
  sha256 : Bytes → Bytes

/-- A piece of Michelson in JSON, as far as the generators use it: a primitive with at most one argument. -/
inductive Michelson where
  | prim (name : String) (arg : Option String)
  deriving DecidableEq, Repr

/-- `contents[0]` of the operation given to the node, a `ForgeOperationsParams`. -/
inductive Content where
  | transaction (source destination amount fee gasLimit storageLimit counter : Bytes)
  | delegation (source : Bytes) (delegate : Option Bytes) (fee gasLimit storageLimit counter : Bytes)
  | reveal (source publicKey fee gasLimit storageLimit counter : Bytes)
  | origination (source : Bytes) (delegate : Option Bytes) (balance fee gasLimit storageLimit counter : Bytes)
      (code : List Michelson) (storage : Michelson)
  | ballot (source : Bytes) (period : Nat) (proposal : Bytes) (ballot : Bytes)
  | proposals (source : Bytes) (period : Nat) (proposals : List Bytes)
  | endorsement (level : Nat)
  | activation (pkh secret : Bytes)
  | seed (level : Nat) (nonce : Bytes)
  deriving DecidableEq, Repr

/-- `TestVector` without its name; `blob` is what the node answers. -/
structure TestVector where
  branch : Bytes
  content : Content
  output : Option (List ExpectedPage)

/-- An item of `output`. -/
def expectPage (idx : Nat) (key : String) (val : List Bytes) : ExpectedPage := ⟨idx, ascii key, val⟩

/-- `parseInt(counter || '0', 10)`, for counters below `2 ^ 53`. -/
def World.counterNum (w : World) : Nat :=
  match w.counter with
  | none => 0
  | some t => (t.takeWhile fun c => decide (48 ≤ c ∧ c ≤ 57)).foldl (fun a c => a * 10 + (c.toNat - 48)) 0

/-- `toString` of an integer below `2 ^ 53`. -/
def jsToString (n : Nat) : Bytes := decimal n

/-- zemu/test-vectors-gen/legacy.ts 81: the amount, which is an integer (see `transferAmount_eq`). -/
def transferAmount : Double := (toDouble 1 100).mul mutezMult

/-- zemu/test-vectors-gen/legacy.ts 73-126: transactions. -/
def genTransaction (w : World) (e : Estimate) (_n : Nat) : TestVector :=
  let amount := jsToString (transferAmount.num / transferAmount.den)
  let fee := jsToString e.suggestedFeeMutez
  let counter := jsToString (w.counterNum + 1)
  ⟨w.hash, .transaction w.source w.k1 amount fee (jsToString e.gasLimit) (jsToString e.storageLimit) counter, some [
    expectPage 0 "Operation" (ledgerFmt w.hash),
    expectPage 1 "Type" (ledgerFmt (ascii "Transaction")),
    expectPage 2 "Source" (ledgerFmt w.source),
    expectPage 3 "Destination" (ledgerFmt w.k1),
    expectPage 4 "Amount" (ledgerFmtCurrency amount),
    expectPage 5 "Fee" (ledgerFmtCurrency fee),
    expectPage 6 "Parameters" (ledgerFmt (ascii "no parameters...")),
    expectPage 7 "Gas Limit" (ledgerFmt (jsToString e.gasLimit)),
    expectPage 8 "Storage Limit" (ledgerFmt (jsToString e.storageLimit)),
    expectPage 9 "Counter" (ledgerFmt counter)]⟩

/-- zemu/test-vectors-gen/delegation.ts 41 and 83-89: `delegationSet`, the delegates and their names. -/
def delegationSet (w : World) : List (Option Bytes × Bytes) :=
  [(some (ascii "tz1eY5Aqa1kXDFoiebL28emyXFoneAoVg1zh"), ascii "Obsidian"), (some w.ed, w.ed), (some w.p256, w.p256),
    (some w.k1, w.k1), (none, ascii "<REVOKED>")]

/-- zemu/test-vectors-gen/delegation.ts 73-133: delegations. -/
def genDelegation (w : World) (e : Estimate) (n : Nat) : TestVector :=
  let delegate := (delegationSet w).getD (n % (delegationSet w).length) (none, [])
  let type := if delegate.1.isSome then "Delegation" else "Delegation Withdrawal"
  let fee := jsToString e.suggestedFeeMutez
  let counter := jsToString (w.counterNum + 1 + n)
  ⟨w.hash, .delegation w.source delegate.1 fee (jsToString e.gasLimit) (jsToString e.storageLimit) counter, some [
    expectPage 0 "Operation" (ledgerFmt w.hash),
    expectPage 1 "Type" (ledgerFmt (ascii type)),
    expectPage 2 "Source" (ledgerFmt w.source),
    expectPage 3 "Delegation" (ledgerFmt delegate.2),
    expectPage 4 "Fee" (ledgerFmtCurrency fee),
    expectPage 5 "Gas Limit" (ledgerFmt (jsToString e.gasLimit)),
    expectPage 6 "Storage Limit" (ledgerFmt (jsToString e.storageLimit)),
    expectPage 7 "Counter" (ledgerFmt counter)]⟩

/-- zemu/test-vectors-gen/reveal.ts 78-129: revelations. The estimate is optional (79). -/
def genReveal (w : World) (n : Nat) : TestVector :=
  let e := w.estimate.getD { gasLimit := 10, storageLimit := 100, suggestedFeeMutez := 1234 }
  let fee := jsToString e.suggestedFeeMutez
  let counter := jsToString (w.counterNum + 1 + n)
  ⟨w.hash, .reveal w.source w.publicKey fee (jsToString e.gasLimit) (jsToString e.storageLimit) counter, some [
    expectPage 0 "Operation" (ledgerFmt w.hash),
    expectPage 1 "Type" (ledgerFmt (ascii "Revelation")),
    expectPage 2 "Source" (ledgerFmt w.source),
    expectPage 3 "Public Key" (ledgerFmt w.publicKey),
    expectPage 4 "Fee" (ledgerFmtCurrency fee),
    expectPage 5 "Gas Limit" (ledgerFmt (jsToString e.gasLimit)),
    expectPage 6 "Storage Limit" (ledgerFmt (jsToString e.storageLimit)),
    expectPage 7 "Counter" (ledgerFmt counter)]⟩

/-- zemu/test-vectors-gen/origination.ts 79-90: the delegate, and what is expected of it. -/
def originationDelegate (w : World) (n : Nat) : Option Bytes × Bytes :=
  if n % 3 = 0 then (some w.p256, w.p256)
  else if n % 2 = 0 then (some w.k1, w.k1)
  else if n % 5 = 0 then (none, ascii "no delegate")
  else (some w.ed, w.ed)

/-- zemu/test-vectors-gen/origination.ts 105-135: the contract. -/
def originationCode : List Michelson :=
  [.prim "parameter" (some "unit"), .prim "storage" (some "unit"), .prim "code" (some "code")]

def originationStorage : Michelson := .prim "Unit" none

/-- zemu/test-vectors-gen/origination.ts 140 and 142: the same in binary, as the author of the generator worked out. -/
def forgedCode : Bytes := [0x02, 0, 0, 0, 0x0c, 0x05, 0x00, 0x03, 0x6c, 0x05, 0x01, 0x03, 0x6c, 0x05, 0x02, 0x03, 0x02]
def forgedStorage : Bytes := [0x03, 0x0b]

/-- zemu/test-vectors-gen/origination.ts 71-171: originations. -/
def genOrigination (w : World) (n : Nat) : TestVector :=
  let d := originationDelegate w n
  let counter := jsToString (w.counterNum + 1 + n)
  ⟨w.hash, .origination w.source d.1 (jsToString n) (ascii "10000") (ascii "10") (ascii "10") counter originationCode
      originationStorage, some [
    expectPage 0 "Operation" (ledgerFmt w.hash),
    expectPage 1 "Type" (ledgerFmt (ascii "Origination")),
    expectPage 2 "Source" (ledgerFmt w.source),
    expectPage 3 "Balance" (ledgerFmtCurrency (jsToString n)),
    expectPage 4 "Delegate" (ledgerFmt d.2),
    expectPage 5 "Fee" (ledgerFmtCurrency (ascii "10000")),
    expectPage 6 "Code" (ledgerFmt (hexEncode (w.sha256 forgedCode))),
    expectPage 7 "Storage" (ledgerFmt (hexEncode (w.sha256 forgedStorage))),
    expectPage 8 "Gas Limit" (ledgerFmt (ascii "10")),
    expectPage 9 "Storage Limit" (ledgerFmt (ascii "10")),
    expectPage 10 "Counter" (ledgerFmt counter)]⟩

/-- zemu/test-vectors-gen/ballot.ts 78-85: what is voted on, and the vote. -/
def ballotChoice (n : Nat) : Bytes × Bytes :=
  if n % 3 = 0 then (ascii "PtGRANADsDU8R9daYKAgWnQYAJ64omN1o3KMGVCykShA97vQbvV", ascii "yay")
  else if n % 2 = 0 then (ascii "PsFLorenaUUuikDWvMDr6fGBRG8kt3e3D3fHoXK1j1BFRxeSH4i", ascii "nay")
  else (ascii "PtGRANADsDU8R9daYKAgWnQYAJ64omN1o3KMGVCykShA97vQbvV", ascii "pass")

/-- zemu/test-vectors-gen/ballot.ts 70-123: ballots. -/
def genBallot (w : World) (n : Nat) : TestVector :=
  let c := ballotChoice n
  ⟨w.hash, .ballot w.source n c.1 c.2, some [
    expectPage 0 "Operation" (ledgerFmt w.hash),
    expectPage 1 "Type" (ledgerFmt (ascii "Ballot")),
    expectPage 2 "Source" (ledgerFmt w.source),
    expectPage 3 "Period" (ledgerFmt (jsToString n)),
    expectPage 4 "Proposal" (ledgerFmt c.1),
    expectPage 5 "Vote" (ledgerFmt c.2)]⟩

/-- zemu/test-vectors-gen/proposals.ts 78-86: the proposals. -/
def proposalPair (n : Nat) : Bytes × Bytes :=
  let p1 := ascii "PsCARTHAGazKbHtnKfLzQg3kms52kSRpgnDY982a9oYsSXRLQEb"
  let p2 := ascii "PsFLorenaUUuikDWvMDr6fGBRG8kt3e3D3fHoXK1j1BFRxeSH4i"
  if n % 2 = 0 then (p1, p2) else (p2, p1)

/-- zemu/test-vectors-gen/proposals.ts 70-122: proposals. -/
def genProposals (w : World) (n : Nat) : TestVector :=
  let p := proposalPair n
  ⟨w.hash, .proposals w.source n [p.1, p.2], some [
    expectPage 0 "Operation" (ledgerFmt w.hash),
    expectPage 1 "Type" (ledgerFmt (ascii "Proposals")),
    expectPage 2 "Source" (ledgerFmt w.source),
    expectPage 3 "Period" (ledgerFmt (jsToString n)),
    expectPage 4 "Proposal #1" (ledgerFmt p.1),
    expectPage 5 "Proposal #2" (ledgerFmt p.2)]⟩

/-- zemu/test-vectors-gen/endorsement.ts 70-107: endorsements. -/
def genEndorsement (w : World) (n : Nat) : TestVector :=
  ⟨w.hash, .endorsement n, some [
    expectPage 0 "Operation" (ledgerFmt w.hash),
    expectPage 1 "Type" (ledgerFmt (ascii "Endorsement")),
    expectPage 2 "Level" (ledgerFmt (jsToString n))]⟩

/-- zemu/test-vectors-gen/activate_account.ts 70-109: activations of accounts. -/
def genActivation (w : World) (_n : Nat) : TestVector :=
  let secret := hexEncode w.random
  ⟨w.hash, .activation w.source secret, some [
    expectPage 0 "Operation" (ledgerFmt w.hash),
    expectPage 1 "Type" (ledgerFmt (ascii "Acct. Activation")),
    expectPage 2 "Public Key Hash" (ledgerFmt w.source),
    expectPage 3 "Secret" (ledgerFmt secret)]⟩

/-- zemu/test-vectors-gen/seed_nonce_revelation.ts 67-103: revelations of nonces, without expectations. -/
def genSeed (w : World) (n : Nat) : TestVector := ⟨w.hash, .seed n (hexEncode w.random), none⟩

/-- zemu/test-vectors-gen/index.ts 9-20: `options`. Without an estimate the generators of transactions and delegations
fail; then there is no vector. -/
inductive Generator where
  | transaction | delegation | reveal | origination | ballot | proposals | endorsement | activation | seed
  deriving DecidableEq, Repr

/-- `generate_vector`. -/
def Generator.run (g : Generator) (w : World) (n : Nat) : Option TestVector :=
  match g with
  | .transaction => w.estimate.map fun e => genTransaction w e n
  | .delegation => w.estimate.map fun e => genDelegation w e n
  | .reveal => some (genReveal w n)
  | .origination => some (genOrigination w n)
  | .ballot => some (genBallot w n)
  | .proposals => some (genProposals w n)
  | .endorsement => some (genEndorsement w n)
  | .activation => some (genActivation w n)
  | .seed => some (genSeed w n)

/-- rust/app/src/parser/integration_tests.rs 81-97: without expectations nothing is compared. -/
def TestVector.passes (v : TestVector) (cr : Crypto) (blob : Bytes) : Bool :=
  match v.output with
  | none => true
  | some ui => testUi cr blob ui

end Tezos
