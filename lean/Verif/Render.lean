import Verif.Operations
import Verif.Watermark
import Verif.Crypto
import Verif.Bakers
/-
What each operation shows: for every item a title and a message. The message is the byte string handed to
`handle_ui_message`, which cuts it in pages; constant messages carry the terminating NUL that `pic_str!` adds
(rust/bolos-derive/src/pic_str.rs), which counts for the paging. Titles are given without their terminator;
they fit the smallest title buffer (18 bytes).
-/
namespace Tezos

/-- One item of a review. -/
structure Field where
  title : Bytes
  text : Bytes
  deriving DecidableEq, Repr

/-- `pic_str!` of a literal. -/
def cstr (s : String) : Bytes := ascii s ++ [0]

/-- A system error while rendering. -/
def orUnknown {α : Type} : Option α → Except VErr α
  | some a => .ok a
  | none => .error .unknown

/-- `read_as::<usize>().ok_or(ViewError::Unknown)`; `usize` has 32 bits on the device. -/
def numValue (z : Zarith) : Except VErr Nat :=
  match z.readAs usizeBits with
  | some (_, v) => .ok v
  | none => .error .unknown

/-- A number shown as is. -/
def numText (z : Zarith) : Except VErr Bytes := do
  let v ← numValue z
  return decimal v

/-- A number of millionths shown with six decimals. -/
def fpText (z : Zarith) : Except VErr Bytes := do
  let v ← numValue z
  amountText v

/-- Base58 text of an account (`source_base58` and the like, e.g. rust/app/src/parser/operations/transfer.rs 240-246).
-/
def pkhText (cr : Crypto) (p : Pkh) : Except VErr Bytes := do
  let a ← orUnknown (Addr.fromHash cr p.hash p.curve)
  a.base58

/-- rust/app/src/parser/operations.rs 336-361: `ContractID::base58`. -/
def ContractID.text (cr : Crypto) (c : ContractID) : Except VErr Bytes := do
  let (pfx, hash) := match c with
    | .originated h => (prefixKT1, h)
    | .implicit p => (p.curve.hashPrefix, p.hash)
  let b ← orUnknown (checked cr pfx hash)
  base58Into 37 b

/-- Hexadecimal text of the SHA-256 of Michelson data (e.g. rust/app/src/parser/operations/transfer.rs 336-350). -/
def michelsonText (cr : Crypto) (m : Bytes) : Except VErr Bytes := do
  let d ← orUnknown (cr.sha256 m)
  return hexEncode d

/-- rust/app/src/parser/operations/transfer.rs 249-392: `Transfer::render_item`. -/
def Transfer.item (cr : Crypto) (t : Transfer) (n : Nat) : Except VErr Field :=
  match n with
  | 0 => .ok ⟨ascii "Type",
      if t.parameters.isSome then cstr "Contract Execution" else cstr "Transaction"⟩
  | 1 => do return ⟨ascii "Source", ← pkhText cr t.manager.source⟩
  | 2 => do
    let title := match t.destination with
      | .implicit _ => ascii "Destination"
      | .originated _ => ascii "Contract Addr"
    return ⟨title, ← t.destination.text cr⟩
  | 3 => do return ⟨ascii "Amount", ← fpText t.amount⟩
  | 4 => do return ⟨ascii "Fee", ← fpText t.manager.fee⟩
  | 5 => match t.parameters with
    | some p => do return ⟨ascii "Parameters", ← michelsonText cr p.michelson⟩
    | none => .ok ⟨ascii "Parameters", cstr "no parameters..."⟩
  | 6 => do return ⟨ascii "Gas Limit", ← numText t.manager.gasLimit⟩
  | 7 => do return ⟨ascii "Storage Limit", ← numText t.manager.storageLimit⟩
  | 8 => do return ⟨ascii "Counter", ← numText t.manager.counter⟩
  | _ => .error .noData

/-- rust/app/src/parser/operations/delegation.rs 102-218: `Delegation::render_item`. -/
def Delegation.item (cr : Crypto) (d : Delegation) (n : Nat) : Except VErr Field :=
  match n with
  | 0 => .ok ⟨ascii "Type",
      if d.delegate.isSome then cstr "Delegation" else cstr "Delegation Withdrawal"⟩
  | 1 => do return ⟨ascii "Source", ← pkhText cr d.manager.source⟩
  | 2 => match d.delegate with
    | some p =>
      match bakerLookup p.curve.hashPrefix p.hash with
      | some name => .ok ⟨ascii "Delegation", name⟩
      | none => do return ⟨ascii "Delegation", ← pkhText cr p⟩
    | none => .ok ⟨ascii "Delegation", cstr "<REVOKED>"⟩
  | 3 => do return ⟨ascii "Fee", ← fpText d.manager.fee⟩
  | 4 => do return ⟨ascii "Gas Limit", ← numText d.manager.gasLimit⟩
  | 5 => do return ⟨ascii "Storage Limit", ← numText d.manager.storageLimit⟩
  | 6 => do return ⟨ascii "Counter", ← numText d.manager.counter⟩
  | _ => .error .noData

/-- rust/app/src/parser/operations/origination.rs 144-283: `Origination::render_item`. -/
def Origination.item (cr : Crypto) (o : Origination) (n : Nat) : Except VErr Field :=
  match n with
  | 0 => .ok ⟨ascii "Type", cstr "Origination"⟩
  | 1 => do return ⟨ascii "Source", ← pkhText cr o.manager.source⟩
  | 2 => do return ⟨ascii "Balance", ← fpText o.balance⟩
  | 3 => match o.delegate with
    | some p => do return ⟨ascii "Delegate", ← pkhText cr p⟩
    | none => .ok ⟨ascii "Delegate", cstr "no delegate"⟩
  | 4 => do return ⟨ascii "Fee", ← fpText o.manager.fee⟩
  | 5 => do return ⟨ascii "Code", ← michelsonText cr o.script.code⟩
  | 6 => do return ⟨ascii "Storage", ← michelsonText cr o.script.storage⟩
  | 7 => do return ⟨ascii "Gas Limit", ← numText o.manager.gasLimit⟩
  | 8 => do return ⟨ascii "Storage Limit", ← numText o.manager.storageLimit⟩
  | 9 => do return ⟨ascii "Counter", ← numText o.manager.counter⟩
  | _ => .error .noData

/-- rust/app/src/parser/operations/reveal.rs 208-230: `pk_to_base58`. -/
def keyText (cr : Crypto) (curve : Curve) (key : Bytes) : Except VErr Bytes := do
  let b ← orUnknown (checked cr curve.keyPrefix key)
  base58Into 56 b

/-- rust/app/src/parser/operations/reveal.rs 104-201: `Reveal::render_item`. -/
def Reveal.item (cr : Crypto) (r : Reveal) (n : Nat) : Except VErr Field :=
  match n with
  | 0 => .ok ⟨ascii "Type", cstr "Revelation"⟩
  | 1 => do return ⟨ascii "Source", ← pkhText cr r.manager.source⟩
  | 2 => do return ⟨ascii "Public Key", ← keyText cr r.pkCurve r.pk⟩
  | 3 => do return ⟨ascii "Fee", ← fpText r.manager.fee⟩
  | 4 => do return ⟨ascii "Gas Limit", ← numText r.manager.gasLimit⟩
  | 5 => do return ⟨ascii "Storage Limit", ← numText r.manager.storageLimit⟩
  | 6 => do return ⟨ascii "Counter", ← numText r.manager.counter⟩
  | _ => .error .noData

/-- rust/app/src/parser/operations/endorsement.rs 61-96: `Endorsement::render_item`. -/
def endorsementItem (level : UInt32) (n : Nat) : Except VErr Field :=
  match n with
  | 0 => .ok ⟨ascii "Type", cstr "Endorsement"⟩
  | 1 => .ok ⟨ascii "Level", decimalI32 level⟩
  | _ => .error .noData

/-- rust/app/src/parser/operations.rs 73-91: `Operation::base58_branch_into`. -/
def branchText (cr : Crypto) (branch : Bytes) : Except VErr Bytes := do
  let b ← orUnknown (checked cr prefixB branch)
  base58Into 52 b

/-- rust/app/src/parser/operations/endorsement.rs 186-236: `EndorsementWithSlot::render_item`. -/
def EndorsementWithSlot.item (cr : Crypto) (e : EndorsementWithSlot) (n : Nat) : Except VErr Field :=
  match n with
  | 0 => .ok ⟨ascii "Type", cstr "Endorsement"⟩
  | 1 => do return ⟨ascii "Branch", ← branchText cr e.branch⟩
  | 2 => .ok ⟨ascii "Slot", decimal e.slot.toNat⟩
  | n + 3 => endorsementItem e.level n

/-- rust/app/src/parser/operations/proposals.rs 97-118 and rust/app/src/parser/operations/ballot.rs 131-152:
`proposal_base58`. -/
def proposalText (cr : Crypto) (p : Bytes) : Except VErr Bytes := do
  let b ← orUnknown (checked cr prefixP p)
  base58Into 52 b

/-- rust/app/src/parser/operations/proposals.rs 128-205: `Proposals::render_item`. The number of proposals is
truncated to 8 bits; indexing past the end would abort. -/
def Proposals.item (cr : Crypto) (p : Proposals) (n : Nat) : Except VErr Field :=
  match n with
  | 0 => .ok ⟨ascii "Type", cstr "Proposals"⟩
  | 1 => do return ⟨ascii "Source", ← pkhText cr p.source⟩
  | 2 => .ok ⟨ascii "Period", decimalI32 p.period⟩
  | k + 3 =>
    if k < p.proposals.length % 256 then
      match p.proposals[k]? with
      | none => .error .panic
      | some prop => do return ⟨ascii "Proposal #" ++ decimal (k + 1), ← proposalText cr prop⟩
    else .error .noData

/-- rust/app/src/parser/operations/ballot.rs 155-224: `Ballot::render_item`. -/
def Ballot.item (cr : Crypto) (b : Ballot) (n : Nat) : Except VErr Field :=
  match n with
  | 0 => .ok ⟨ascii "Type", cstr "Ballot"⟩
  | 1 => do return ⟨ascii "Source", ← pkhText cr b.source⟩
  | 2 => .ok ⟨ascii "Period", decimalI32 b.period⟩
  | 3 => do return ⟨ascii "Proposal", ← proposalText cr b.proposal⟩
  | 4 => .ok ⟨ascii "Vote", match b.vote with
      | .yay => cstr "yay"
      | .nay => cstr "nay"
      | .pass => cstr "pass"⟩
  | _ => .error .noData

/-- rust/app/src/parser/operations/activate_account.rs 91-135: `ActivateAccount::render_item`. -/
def ActivateAccount.item (cr : Crypto) (a : ActivateAccount) (n : Nat) : Except VErr Field :=
  match n with
  | 0 => .ok ⟨ascii "Type", cstr "Acct. Activation"⟩
  | 1 => do return ⟨ascii "Public Key Hash", ← pkhText cr a.pkh⟩
  | 2 => .ok ⟨ascii "Secret", hexEncode a.secret⟩
  | _ => .error .noData

/-- rust/app/src/parser/operations/failing_noop.rs 57-95: `FailingNoop::render_item`. -/
def failingNoopItem (cr : Crypto) (data : Bytes) (n : Nat) : Except VErr Field :=
  match n with
  | 0 => .ok ⟨ascii "Type", cstr "Failing Noop"⟩
  | 1 => do return ⟨ascii "Data Hash", ← michelsonText cr data⟩
  | _ => .error .noData

/-- rust/app/src/parser/operations/operation_type.rs 273-297: `hash_and_base58`. -/
def unknownText (cr : Crypto) (data : Bytes) : Except VErr Bytes := do
  let d ← orUnknown (cr.blake2b 32 data)
  let sum ← orUnknown (sha256x2 cr [d])
  base58Into 50 (d ++ sum)

/-- rust/app/src/parser/operations/operation_type.rs 299-326: `render_unknown`. -/
def unknownItem (cr : Crypto) (data : Bytes) (n : Nat) : Except VErr Field :=
  match n with
  | 0 => .ok ⟨ascii "Type", cstr "Unknown Operation"⟩
  | 1 => do return ⟨ascii "Hash", ← unknownText cr data⟩
  | _ => .error .noData

/-- The dispatch of rust/app/src/handlers/signing.rs 281-312. -/
def Op.item (cr : Crypto) (op : Op) (n : Nat) : Except VErr Field :=
  match op with
  | .transfer t => t.item cr n
  | .delegation d => d.item cr n
  | .endorsement l => endorsementItem l n
  | .endorsementWithSlot e => e.item cr n
  | .ballot b => b.item cr n
  | .reveal r => r.item cr n
  | .proposals p => p.item cr n
  | .origination o => o.item cr n
  | .activateAccount a => a.item cr n
  | .failingNoop d => failingNoopItem cr d n
  | .unknown d => unknownItem cr d n
  | .anonymous => .error .reject

/-- rust/app/src/parser/operations/operation_type.rs 255-270: `ui_items`. -/
def Op.uiItems : Op → Nat
  | .transfer _ => 9
  | .delegation _ => 7
  | .endorsement _ => 2
  | .endorsementWithSlot _ => 5
  | .ballot _ => 5
  | .reveal _ => 7
  | .proposals p => 3 + p.proposals.length
  | .origination _ => 10
  | .activateAccount _ => 3
  | .failingNoop _ => 2
  | .unknown _ => 2
  | .anonymous => 0

/-- rust/app/src/handlers/hwm.rs 367-388: `ChainID::id_to_base58`. -/
def chainIdText (cr : Crypto) (id : UInt32) : Except VErr Bytes := do
  let b ← orUnknown (checked cr prefixNET (be32 id))
  base58Into 16 b

/-- rust/app/src/handlers/hwm.rs 390-413: `ChainID::to_alias`. -/
def ChainID.alias (cr : Crypto) : ChainID → Except VErr Bytes
  | .any => .ok (cstr "any")
  | .mainnet => .ok (cstr "mainnet")
  | .custom id => chainIdText cr id

/-! ### Batches -/

/-- Every operation of the unread part, as the loops over `parse_next_into` see them: fails as soon as one does not
parse. The fuel bounds the number of operations; each takes at least one byte. -/
def parseOpsFuel : Nat → Bytes → Except PErr (List Op)
  | 0, _ => .ok []
  | f + 1, i => do
    match ← parseNext i with
    | none => return []
    | some (rem, op) => return op :: (← parseOpsFuel f rem)

def parseOps (i : Bytes) : Except PErr (List Op) := parseOpsFuel (i.length + 1) i

/-- rust/app/src/handlers/signing.rs 203-243: `SignUI::num_items` for an operation: one item for the branch and
those of every operation, truncated to 8 bits. -/
def numItemsOps (ops : Bytes) : Except VErr UInt8 :=
  match parseOps ops with
  | .error _ => .error .unknown
  | .ok l => .ok (UInt8.ofNat (1 + (l.map Op.uiItems).sum))

/-- rust/app/src/handlers/signing.rs 155-200: the loop of `find_op_with_item` after the branch has been
subtracted: the operation holding the item and the index in it. The item count of an operation is truncated to
8 bits. -/
def findOpFuel : Nat → Bytes → UInt8 → Except VErr (Option (Op × UInt8))
  | 0, _, _ => .ok none
  | f + 1, i, idx =>
    match parseNext i with
    | .error _ => .error .unknown
    | .ok none => .ok none
    | .ok (some (rem, op)) =>
      let n := UInt8.ofNat op.uiItems
      if n > idx then .ok (some (op, idx)) else findOpFuel f rem (idx - n)

def findOp (i : Bytes) (idx : UInt8) : Except VErr (Option (Op × UInt8)) := findOpFuel (i.length + 1) i idx

/-- rust/app/src/handlers/signing.rs 246-316: `SignUI::render_item` when the message is an operation. -/
def signOpItem (cr : Crypto) (branch ops : Bytes) (n : UInt8) : Except VErr Field :=
  if n = 0 then do return ⟨ascii "Operation", ← branchText cr branch⟩
  else do
    match ← findOp ops (n - 1) with
    | none => .error .noData
    | some (op, k) => op.item cr k.toNat

/-- The same when the message is Michelson data. -/
def signMichelsonItem (digest : Bytes) (n : UInt8) : Except VErr Field :=
  if n = 0 then .ok ⟨ascii "Sign Michelson", hexEncode digest⟩ else .error .noData

end Tezos
