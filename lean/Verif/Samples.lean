import Verif.Gen
/-
The samples of the integration tests, as a whole: rust/app/src/parser/integration_tests.rs 80-138. Besides the display
(`Verif/Zuit.lean`) these tests compare the fields of the parsed operations with a description in JSON. The tests run on
a computer with integers of 64 bits; the display is modelled here with these.
-/
namespace Tezos

/-! ### JSON -/

/-- `serde_json::Value`. An object is the list of its members in the order of their names, which are distinct (a
`BTreeMap`). A number that is no integer of 64 bits is not looked at by the tests; it is `float`. -/
inductive Json where
  | null
  | bool (b : Bool)
  | int (n : Int)
  | float
  | str (s : Bytes)
  | arr (l : List Json)
  | obj (l : List (Bytes × Json))

/-- `serde_json::Map<String, Value>`. -/
abbrev JsonMap := List (Bytes × Json)

/-- `json.get(key)`. Indexing with a name, `json[key]`, aborts where this is `none`. -/
def JsonMap.get (j : JsonMap) (key : String) : Option Json := List.lookup (ascii key) j

/-- `json[key].as_str()`; `none` is an abort. -/
def JsonMap.str (j : JsonMap) (key : String) : Option Bytes :=
  match j.get key with
  | some (.str s) => some s
  | _ => none

/-- `json[key].as_i64()`; `none` is an abort. -/
def JsonMap.i64 (j : JsonMap) (key : String) : Option Int :=
  match j.get key with
  | some (.int n) => if -(2 ^ 63) ≤ n ∧ n < 2 ^ 63 then some n else none
  | _ => none

/-- `hex::decode` of a digit, from crate `hex`: of either case. -/
def hexNibble (c : UInt8) : Option UInt8 :=
  if 48 ≤ c ∧ c ≤ 57 then some (c - 48)
  else if 65 ≤ c ∧ c ≤ 70 then some (c - 65 + 10)
  else if 97 ≤ c ∧ c ≤ 102 then some (c - 97 + 10)
  else none

/-- `hex::decode`, from crate `hex`. -/
def hexDecode : Bytes → Option Bytes
  | [] => some []
  | [_] => none
  | a :: b :: r => do
    let x ← hexNibble a
    let y ← hexNibble b
    return (x * 16 + y) :: (← hexDecode r)

/-! ### Floating point numbers -/

/-- Decimal digits at the front of a text, and the rest. -/
def digitsFront (t : Bytes) : Bytes × Bytes := t.span fun c => decide (48 ≤ c ∧ c ≤ 57)

/-- The number written by digits. -/
def digitsNat (t : Bytes) : Nat := t.foldl (fun a c => a * 10 + (c.toNat - 48)) 0

/-- A sign at the front of a text: whether it is a minus, and the rest. -/
def signFront : Bytes → Bool × Bytes
  | 43 :: r => (false, r)
  | 45 :: r => (true, r)
  | t => (false, t)

/-- The exponent at the end of a number, `e` or `E` and an integer, if there is any. -/
def readExponent : Bytes → Option Int
  | [] => some 0
  | c :: r =>
    let s := signFront r
    let d := digitsFront s.2
    if (c = 101 ∨ c = 69) ∧ d.1 ≠ [] ∧ d.2 = [] then
      some (if s.1 then -(digitsNat d.1 : Int) else digitsNat d.1)
    else none

/-- A number without sign: digits, with a point between or beside them, and an exponent. -/
def readDecimal (t : Bytes) : Option Double :=
  let int := digitsFront t
  let frac := match int.2 with
    | 46 :: r => digitsFront r
    | r => ([], r)
  if int.1 = [] ∧ frac.1 = [] then none
  else do
    let e ← readExponent frac.2
    let e := e - frac.1.length
    let m := digitsNat (int.1 ++ frac.1)
    return toDouble (m * 10 ^ e.toNat) (10 ^ (-e).toNat)

/-- `f64`, without the sign of zero. See `Double` for its limits, which do not matter for what the tests do with it: a
number that the computer rounds to infinity, or to zero, is then as far off, or as near, as one that is not. -/
inductive F64 where
  | finite (negative : Bool) (x : Double)
  | infinite (negative : Bool)
  | nan

/-- `str::parse::<f64>`, from the standard library: a number in decimal notation, rounded; or `inf`, `infinity` or `nan`
in letters of either case. -/
def readF64 (t : Bytes) : Option F64 :=
  let s := signFront t
  let w := s.2.map fun c => if 65 ≤ c ∧ c ≤ 90 then c + 32 else c
  if w = ascii "inf" ∨ w = ascii "infinity" then some (.infinite s.1)
  else if w = ascii "nan" then some .nan
  else (readDecimal s.2).map (.finite s.1)

/-- The numerator of a number with a sign. -/
def signedNum (negative : Bool) (n : Nat) : Int := if negative then -(n : Int) else n

/-- `num < 0.0`. -/
def F64.negative : F64 → Bool
  | .finite n x => n && x.num != 0
  | .infinite n => n
  | .nan => false

/-- `(z - num).abs() < f64::EPSILON` for the integer `z`, of at most 32 bits. -/
def F64.near (z : Int) : F64 → Bool
  | .finite n x =>
    let d := toDouble (z * x.den - signedNum n x.num).natAbs x.den
    decide (d.num * 2 ^ 52 < d.den)
  | _ => false

/-- rust/app/src/parser.rs 160-186: `Zarith::is`: whether it does not abort. -/
def Zarith.isJson (z : Zarith) (j : JsonMap) (key : String) : Bool :=
  match j.str key with
  | none => false
  | some t =>
    match readF64 t with
    | none => false
    | some num =>
      (match z.isNegative with
        | none => true
        | some neg => neg == num.negative) &&
      (match z.readAs 32 with
        | none => false
        | some (neg, v) => num.near (signedNum neg v))

/-! ### The fields of the operations -/

/-- The comparison of a text in base58 with the one in JSON. -/
def textIsJson (t : Except VErr Bytes) (j : JsonMap) (key : String) : Bool :=
  match t, j.str key with
  | .ok t, some s => decide (t = s)
  | _, _ => false

/-- The comparison of an optional text: rust/app/src/parser/operations/delegation.rs 249-264. -/
def optionIsJson (t : Option (Except VErr Bytes)) (j : JsonMap) (key : String) : Bool :=
  match t with
  | none => (j.get key).isNone
  | some t => textIsJson t j key

/-- `self.level == expected as i32`: the conversion keeps the low 32 bits. -/
def i32IsJson (x : UInt32) (j : JsonMap) (key : String) : Bool :=
  match j.i64 key with
  | none => false
  | some n => decide ((x.toNat : Int) = n % 2 ^ 32)

/-- `self.slot == expected as u16`. -/
def u16IsJson (x : UInt16) (j : JsonMap) (key : String) : Bool :=
  match j.i64 key with
  | none => false
  | some n => decide ((x.toNat : Int) = n % 2 ^ 16)

/-- The comparison of bytes with hexadecimal text. -/
def bytesIsJson (b : Bytes) (j : JsonMap) (key : String) : Bool :=
  match j.str key with
  | none => false
  | some s => decide (hexDecode s = some b)

/-- What the operations of managers have in common: their source and numbers. -/
def Manager.isJson (cr : Crypto) (m : Manager) (j : JsonMap) : Bool :=
  textIsJson (pkhText cr m.source) j "source" && m.counter.isJson j "counter" && m.fee.isJson j "fee" &&
    m.gasLimit.isJson j "gas_limit" && m.storageLimit.isJson j "storage_limit"

/-- rust/app/src/parser/operations/transfer.rs 440-445: whether parameters are those that stand for none. -/
def isDefaultCall : JsonMap → Bool
  | [(e, .str d), (v, .obj [(p, .str u)])] =>
    decide (e = ascii "entrypoint" ∧ d = ascii "default" ∧ v = ascii "value" ∧ p = ascii "prim" ∧ u = ascii "Unit")
  | _ => false

/-- rust/app/src/parser/operations/transfer.rs 462-467: the names of entrypoints. -/
def Entrypoint.jsonName : Entrypoint → Bytes
  | .default => ascii "default"
  | .root => ascii "root"
  | .do_ => ascii "do"
  | .setDelegate => ascii "set_delegate"
  | .removeDelegate => ascii "remove_delegate"
  | .custom s => s

/-- rust/app/src/parser/operations/transfer.rs 427-473: the parameters. -/
def parametersIsJson (p : Option Parameters) (j : JsonMap) : Bool :=
  match p, j.get "parameters" with
  | none, none => true
  | none, some (.obj l) => isDefaultCall l
  | some p, some (.obj l) =>
    match JsonMap.str l "entrypoint" with
    | some s => decide (p.entrypoint.jsonName = s)
    | none => false
  | _, _ => false

/-- rust/app/src/parser/operations/transfer.rs 397-474: `Transfer::is`. -/
def Transfer.isJson (cr : Crypto) (t : Transfer) (j : JsonMap) : Bool :=
  t.manager.isJson cr j && t.amount.isJson j "amount" && textIsJson (t.destination.text cr) j "destination" &&
    parametersIsJson t.parameters j

/-- rust/app/src/parser/operations/delegation.rs 232-264: `Delegation::is`. -/
def Delegation.isJson (cr : Crypto) (d : Delegation) (j : JsonMap) : Bool :=
  d.manager.isJson cr j && optionIsJson (d.delegate.map (pkhText cr)) j "delegate"

/-- rust/app/src/parser/operations/reveal.rs 234-259: `Reveal::is`. -/
def Reveal.isJson (cr : Crypto) (r : Reveal) (j : JsonMap) : Bool :=
  r.manager.isJson cr j && textIsJson (keyText cr r.pkCurve r.pk) j "public_key"

/-- rust/app/src/parser/operations/origination.rs 288-317: `Origination::is`. -/
def Origination.isJson (cr : Crypto) (o : Origination) (j : JsonMap) : Bool :=
  o.manager.isJson cr j && o.balance.isJson j "balance" && optionIsJson (o.delegate.map (pkhText cr)) j "delegate"

/-- rust/app/src/parser/operations/ballot.rs 236-269: `Ballot::is`. -/
def Ballot.isJson (cr : Crypto) (b : Ballot) (j : JsonMap) : Bool :=
  textIsJson (pkhText cr b.source) j "source" && i32IsJson b.period j "period" &&
    (match b.vote, j.str "ballot" with
      | .yay, some s => decide (s = ascii "yay")
      | .nay, some s => decide (s = ascii "nay")
      | .pass, some s => decide (s = ascii "pass")
      | _, none => false) &&
    textIsJson (proposalText cr b.proposal) j "proposal"

/-- rust/app/src/parser/operations/proposals.rs 229-238: the proposals, as many as were parsed. -/
def proposalsAreJson (cr : Crypto) : List Bytes → List Json → Bool
  | [], _ => true
  | p :: ps, .str s :: l =>
    (match proposalText cr p with
      | .ok t => decide (t = s)
      | .error _ => false) && proposalsAreJson cr ps l
  | _ :: _, _ => false

/-- rust/app/src/parser/operations/proposals.rs 210-239: `Proposals::is`. -/
def Proposals.isJson (cr : Crypto) (p : Proposals) (j : JsonMap) : Bool :=
  textIsJson (pkhText cr p.source) j "source" && i32IsJson p.period j "period" &&
    (match j.get "proposals" with
      | some (.arr l) => proposalsAreJson cr p.proposals l
      | _ => false)

/-- rust/app/src/parser/operations/activate_account.rs 140-155: `ActivateAccount::is`. -/
def ActivateAccount.isJson (cr : Crypto) (a : ActivateAccount) (j : JsonMap) : Bool :=
  textIsJson (pkhText cr a.pkh) j "pkh" && bytesIsJson a.secret j "secret"

/-- rust/app/src/parser/operations/endorsement.rs 240-255: `EndorsementWithSlot::is`, with that of the endorsement in it
(101-107). -/
def EndorsementWithSlot.isJson (cr : Crypto) (e : EndorsementWithSlot) (j : JsonMap) : Bool :=
  textIsJson (branchText cr e.branch) j "branch" && u16IsJson e.slot j "slot" && i32IsJson e.level j "level"

/-! ### Batches -/

/-- rust/app/src/parser/operations.rs 218-222: `AnonymousOp`. In tests its fields are kept; those of denunciations are
not looked at. -/
inductive Anonymous where
  | seed (level : UInt32) (nonce : Bytes)
  | doubleEndorsement
  | doubleBaking
  deriving DecidableEq, Repr

/-- rust/app/src/parser/operations.rs 248-270: `AnonymousOp::from_bytes` in tests. -/
def anonymousKept (tag : UInt8) (i : Bytes) : PRes Anonymous :=
  if tag = 1 then nMap (fun x => .seed x.1 x.2) (SeedNonceRevelation.fromBytes i)
  else if tag = 2 then nMap (fun _ => .doubleEndorsement) (DoubleEndorsementEvidence.fromBytes i)
  else if tag = 3 then nMap (fun _ => .doubleBaking) (DoubleBakingEvidence.fromBytes i)
  else .error .err

/-- `parse_next` in tests: the operation, with the fields of an `Op.anonymous`. -/
def parseKept (i : Bytes) : Except PErr (Option (Bytes × Op × Option Anonymous)) := do
  match ← parseNext i with
  | none => return none
  | some (_, .anonymous) =>
    let (rem, tag) ← nU8 i
    let (rem, a) ← anonymousKept tag rem
    return some (rem, .anonymous, some a)
  | some (rem, op) => return some (rem, op, none)

/-- rust/app/src/parser/integration_tests.rs 368-413: `verify_operation`. -/
def verifyOperation (cr : Crypto) (op : Op) (a : Option Anonymous) (j : JsonMap) : Bool :=
  match j.str "kind" with
  | none => false
  | some kind =>
    match op with
    | .transfer t => decide (kind = ascii "transaction") && t.isJson cr j
    | .delegation d => decide (kind = ascii "delegation") && d.isJson cr j
    | .endorsement l => decide (kind = ascii "endorsement") && i32IsJson l j "level"
    | .endorsementWithSlot e => decide (kind = ascii "endorsement_with_slot") && e.isJson cr j
    | .ballot b => decide (kind = ascii "ballot") && b.isJson cr j
    | .reveal r => decide (kind = ascii "reveal") && r.isJson cr j
    | .proposals p => decide (kind = ascii "proposals") && p.isJson cr j
    | .origination o => decide (kind = ascii "origination") && o.isJson cr j
    | .activateAccount x => decide (kind = ascii "activate_account") && x.isJson cr j
    | .failingNoop _ => decide (kind = ascii "failing_noop")
    | .unknown _ => false
    | .anonymous =>
      match a with
      | some .doubleBaking => decide (kind = ascii "double_baking_evidence")
      | some .doubleEndorsement => decide (kind = ascii "double_endorsement_evidence")
      | some (.seed l n) => decide (kind = ascii "seed_nonce_revelation") && i32IsJson l j "level" && bytesIsJson n j "nonce"
      | none => false

/-- rust/app/src/parser/integration_tests.rs 112-138: the loop over the operations. Every operation takes at least one
byte, so that a `fuel` above the number of bytes does not run out. -/
def verifyOperations (cr : Crypto) : Nat → Bytes → List JsonMap → Bool
  | 0, _, _ => false
  | fuel + 1, i, contents =>
    match parseKept i with
    | .error _ => false
    | .ok none => contents.isEmpty
    | .ok (some (rem, op, a)) =>
      match contents with
      | [] => false
      | j :: js => verifyOperation cr op a j && verifyOperations cr fuel rem js

/-! ### The display on a computer -/

/-- `usize` has 64 bits on the computer; see `numText`. -/
def wideNum (z : Zarith) : Except VErr Bytes :=
  match z.readAs 64 with
  | some (_, v) => .ok (decimal v)
  | none => .error .unknown

/-- The buffer has `usize::FORMATTED_SIZE_DECIMAL + 2` = 22 bytes; see `fpText`. -/
def wideTez (z : Zarith) : Except VErr Bytes :=
  match z.readAs 64 with
  | none => .error .unknown
  | some (_, v) =>
    match intstrToFpstr (decimal v ++ List.replicate (22 - (decimal v).length) 0) 6 with
    | .ok t => .ok t
    | .error .panic => .error .panic
    | .error _ => .error .unknown

/-- The items of an operation that are numbers: their titles, whether they are amounts of tez, and the numbers. -/
def Op.numberItem (op : Op) (n : Nat) : Option (String × Bool × Zarith) :=
  match op, n with
  | .transfer t, 3 => some ("Amount", true, t.amount)
  | .transfer t, 4 => some ("Fee", true, t.manager.fee)
  | .transfer t, 6 => some ("Gas Limit", false, t.manager.gasLimit)
  | .transfer t, 7 => some ("Storage Limit", false, t.manager.storageLimit)
  | .transfer t, 8 => some ("Counter", false, t.manager.counter)
  | .delegation d, 3 => some ("Fee", true, d.manager.fee)
  | .delegation d, 4 => some ("Gas Limit", false, d.manager.gasLimit)
  | .delegation d, 5 => some ("Storage Limit", false, d.manager.storageLimit)
  | .delegation d, 6 => some ("Counter", false, d.manager.counter)
  | .origination o, 2 => some ("Balance", true, o.balance)
  | .origination o, 4 => some ("Fee", true, o.manager.fee)
  | .origination o, 7 => some ("Gas Limit", false, o.manager.gasLimit)
  | .origination o, 8 => some ("Storage Limit", false, o.manager.storageLimit)
  | .origination o, 9 => some ("Counter", false, o.manager.counter)
  | .reveal r, 3 => some ("Fee", true, r.manager.fee)
  | .reveal r, 4 => some ("Gas Limit", false, r.manager.gasLimit)
  | .reveal r, 5 => some ("Storage Limit", false, r.manager.storageLimit)
  | .reveal r, 6 => some ("Counter", false, r.manager.counter)
  | _, _ => none

/-- `Op.item` on the computer. -/
def Op.wideItem (cr : Crypto) (op : Op) (n : Nat) : Except VErr Field :=
  match op.numberItem n with
  | some (title, tez, z) => do return ⟨ascii title, ← if tez then wideTez z else wideNum z⟩
  | none => op.item cr n

/-- `signOpItem` on the computer. -/
def wideSignItem (cr : Crypto) (branch ops : Bytes) (n : UInt8) : Except VErr Field :=
  if n = 0 then do return ⟨ascii "Operation", ← branchText cr branch⟩
  else do
    match ← findOp ops (n - 1) with
    | none => .error .noData
    | some (op, k) => op.wideItem cr k.toNat

/-- The display test of `testUi`, on the computer. -/
def wideTestUi (cr : Crypto) (blob : Bytes) (ui : List ExpectedPage) : Bool :=
  match operationNew blob with
  | .error _ => false
  | .ok (branch, ops) => verifyUi ⟨numItemsOps ops, wideSignItem cr branch ops⟩ ui

/-! ### Samples -/

/-- rust/app/src/parser/integration_tests.rs 53-79: `Sample`, without its name. -/
structure Sample where
  blob : Bytes
  branch : Bytes
  contents : List JsonMap
  ui : Option (List ExpectedPage)

/-- rust/app/src/parser/integration_tests.rs 80-138: `test_sample`: whether the test passes. -/
def testSample (cr : Crypto) (s : Sample) : Bool :=
  match hexDecode s.blob with
  | none => false
  | some blob =>
    match operationNew blob with
    | .error _ => false
    | .ok (branch, ops) =>
      (match s.ui with
        | none => true
        | some ui => wideTestUi cr blob ui) &&
      (match branchText cr branch with
        | .ok t => decide (t = s.branch)
        | .error _ => false) &&
      verifyOperations cr (ops.length + 1) ops s.contents

/-! ### The generated vectors -/

/-- A piece of Michelson in JSON. -/
def Michelson.json : Michelson → Json
  | .prim name none => .obj [(ascii "prim", .str (ascii name))]
  | .prim name (some arg) =>
    .obj [(ascii "args", .arr [.obj [(ascii "prim", .str (ascii arg))]]), (ascii "prim", .str (ascii name))]

/-- An optional member: `JSON.stringify` leaves out what is `undefined`. -/
def jsonOption (key : String) : Option Bytes → JsonMap
  | none => []
  | some t => [(ascii key, .str t)]

/-- A member that is a text. -/
def jsonText (key : String) (t : Bytes) : Bytes × Json := (ascii key, .str t)

/-- `contents[0]` in the file that the generators write (zemu/test-vectors-gen/index.ts 51), as it is read. -/
def Content.json : Content → JsonMap
  | .transaction source destination amount fee gas storage counter =>
    [jsonText "amount" amount, jsonText "counter" counter, jsonText "destination" destination, jsonText "fee" fee,
      jsonText "gas_limit" gas, jsonText "kind" (ascii "transaction"), jsonText "source" source,
      jsonText "storage_limit" storage]
  | .delegation source delegate fee gas storage counter =>
    jsonText "counter" counter :: (jsonOption "delegate" delegate ++
      [jsonText "fee" fee, jsonText "gas_limit" gas, jsonText "kind" (ascii "delegation"), jsonText "source" source,
        jsonText "storage_limit" storage])
  | .reveal source publicKey fee gas storage counter =>
    [jsonText "counter" counter, jsonText "fee" fee, jsonText "gas_limit" gas, jsonText "kind" (ascii "reveal"),
      jsonText "public_key" publicKey, jsonText "source" source, jsonText "storage_limit" storage]
  | .origination source delegate balance fee gas storage counter code init =>
    jsonText "balance" balance :: jsonText "counter" counter :: (jsonOption "delegate" delegate ++
      [jsonText "fee" fee, jsonText "gas_limit" gas, jsonText "kind" (ascii "origination"),
        (ascii "script", .obj [(ascii "code", .arr (code.map Michelson.json)), (ascii "storage", init.json)]),
        jsonText "source" source, jsonText "storage_limit" storage])
  | .ballot source period proposal vote =>
    [jsonText "ballot" vote, jsonText "kind" (ascii "ballot"), (ascii "period", .int period),
      jsonText "proposal" proposal, jsonText "source" source]
  | .proposals source period hashes =>
    [jsonText "kind" (ascii "proposals"), (ascii "period", .int period), (ascii "proposals", .arr (hashes.map .str)),
      jsonText "source" source]
  | .endorsement level => [jsonText "kind" (ascii "endorsement"), (ascii "level", .int level)]
  | .activation pkh secret =>
    [jsonText "kind" (ascii "activate_account"), jsonText "pkh" pkh, jsonText "secret" secret]
  | .seed level nonce =>
    [jsonText "kind" (ascii "seed_nonce_revelation"), (ascii "level", .int level), jsonText "nonce" nonce]

/-- The sample that a generated vector is, with the operation that the node forged. -/
def TestVector.sample (v : TestVector) (blob : Bytes) : Sample := ⟨hexEncode blob, v.branch, [v.content.json], v.output⟩

end Tezos
