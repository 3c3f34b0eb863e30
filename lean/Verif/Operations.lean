import Verif.Zarith
import Verif.Codes
/-
Operation parsers: rust/app/src/parser.rs 188-222, rust/app/src/parser/operations.rs and
rust/app/src/parser/operations/*.rs (the non-test variants; the `from_bytes_into` functions where both
exist, since those are the ones reached from the handlers).

The `take!` macros are nom's streaming variants: on short input they return `Incomplete` instead of
`Error`. Every caller treats all `nom::Err` alike, so both are `PErr.err` here.
-/
namespace Tezos

/-- A curve and a 20-byte key hash, `(Curve, &[u8; 20])`. -/
structure Pkh where
  curve : Curve
  hash : Bytes
  deriving DecidableEq, Repr

/-- The tag match shared by rust/app/src/parser.rs 191-196 and 206-211. -/
def curveOfTag (t : UInt8) : Option Curve :=
  if t = 0 then some .bip32Ed25519
  else if t = 1 then some .secp256k1
  else if t = 2 then some .secp256r1
  else none

/-- rust/app/src/parser.rs 188-201: `public_key_hash`. The 20 bytes are taken before the tag is checked. -/
def publicKeyHash (i : Bytes) : PRes Pkh := do
  let (rem, t) ← nU8 i
  let (rem, hash) ← nTake 20 rem
  match curveOfTag t with
  | none => .error .err
  | some c => return (rem, ⟨c, hash⟩)

/-- rust/app/src/parser.rs 203-216: `public_key`. -/
def publicKey (i : Bytes) : PRes (Curve × Bytes) := do
  let (rem, t) ← nU8 i
  match curveOfTag t with
  | none => .error .err
  | some c =>
    let (rem, pk) ← nTake (if t = 0 then 32 else 33) rem
    return (rem, (c, pk))

/-- rust/app/src/parser.rs 218-222: `boolean`. -/
def boolean (i : Bytes) : PRes Bool := do
  let (rem, b) ← nU8 i
  return (rem, b == 255)

/-- nom's `cond!`. -/
def nCond {α : Type} (c : Bool) (p : Bytes → PRes α) (i : Bytes) : PRes (Option α) :=
  if c then do
    let (rem, a) ← p i
    return (rem, some a)
  else .ok (i, none)

/-- A 4-byte length followed by that many bytes (`len: be_u32 >> x: take!(len)`). -/
def nLenBytes (i : Bytes) : PRes Bytes := do
  let (rem, len) ← nBeU32 i
  nTake len.toNat rem

/-- rust/app/src/parser/operations.rs 254-258: `ContractID`. -/
inductive ContractID where
  | implicit (p : Pkh)
  | originated (hash : Bytes)
  deriving DecidableEq, Repr

/-- rust/app/src/parser/operations.rs 312-327: `ContractID::from_bytes`; the last byte of an originated
contract is read and ignored. -/
def ContractID.fromBytes (i : Bytes) : PRes ContractID := do
  let (rem, t) ← nU8 i
  if t = 0 then do
    let (rem, p) ← publicKeyHash rem
    return (rem, .implicit p)
  else if t = 1 then do
    let (rem, hash) ← nTake 20 rem
    let (rem, _) ← nU8 rem
    return (rem, .originated hash)
  else .error .err

/-- rust/app/src/parser/operations/transfer.rs 34-43: `Entrypoint`. -/
inductive Entrypoint where
  | default | root | do_ | setDelegate | removeDelegate | custom (name : Bytes)
  deriving DecidableEq, Repr

/-- rust/app/src/parser/operations/transfer.rs 45-67: `Entrypoint::from_bytes`. -/
def Entrypoint.fromBytes (i : Bytes) : PRes Entrypoint := do
  let (rem, t) ← nU8 i
  if t = 0 then return (rem, .default)
  else if t = 1 then return (rem, .root)
  else if t = 2 then return (rem, .do_)
  else if t = 3 then return (rem, .setDelegate)
  else if t = 4 then return (rem, .removeDelegate)
  else if t = 0xFF then do
    let (rem, len) ← nU8 rem
    let (rem, name) ← nTake len.toNat rem
    return (rem, .custom name)
  else .error .err

/-- rust/app/src/parser/operations/transfer.rs 84-91: `Parameters`. -/
structure Parameters where
  entrypoint : Entrypoint
  michelson : Bytes
  deriving DecidableEq, Repr

/-- rust/app/src/parser/operations/transfer.rs 93-111: `Parameters::from_bytes`. -/
def Parameters.fromBytes (i : Bytes) : PRes Parameters := do
  let (rem, ep) ← Entrypoint.fromBytes i
  let (rem, m) ← nLenBytes rem
  return (rem, ⟨ep, m⟩)

/-- The four numbers that follow the source in every manager operation. -/
structure Manager where
  source : Pkh
  fee : Zarith
  counter : Zarith
  gasLimit : Zarith
  storageLimit : Zarith
  deriving DecidableEq, Repr

/-- The common prefix of the `do_parse!` of transfers, delegations, originations and reveals
(e.g. rust/app/src/parser/operations/delegation.rs 73-79). -/
def Manager.fromBytes (i : Bytes) : PRes Manager := do
  let (rem, source) ← publicKeyHash i
  let (rem, fee) ← Zarith.fromBytes false rem
  let (rem, counter) ← Zarith.fromBytes false rem
  let (rem, gas) ← Zarith.fromBytes false rem
  let (rem, storage) ← Zarith.fromBytes false rem
  return (rem, ⟨source, fee, counter, gas, storage⟩)

/-- rust/app/src/parser/operations/transfer.rs 113-125: `Transfer`. -/
structure Transfer where
  manager : Manager
  amount : Zarith
  destination : ContractID
  parameters : Option Parameters
  deriving DecidableEq, Repr

/-- rust/app/src/parser/operations/transfer.rs 165-202: `Transfer::from_bytes_into`. -/
def Transfer.fromBytes (i : Bytes) : PRes Transfer := do
  let (rem, m) ← Manager.fromBytes i
  let (rem, amount) ← Zarith.fromBytes false rem
  let (rem, dest) ← ContractID.fromBytes rem
  let (rem, hasParams) ← boolean rem
  let (rem, params) ← nCond hasParams Parameters.fromBytes rem
  return (rem, ⟨m, amount, dest, params⟩)

/-- rust/app/src/parser/operations/delegation.rs 28-38: `Delegation`. -/
structure Delegation where
  manager : Manager
  delegate : Option Pkh
  deriving DecidableEq, Repr

/-- rust/app/src/parser/operations/delegation.rs 70-99: `Delegation::from_bytes_into`. -/
def Delegation.fromBytes (i : Bytes) : PRes Delegation := do
  let (rem, m) ← Manager.fromBytes i
  let (rem, has) ← boolean rem
  let (rem, d) ← nCond has publicKeyHash rem
  return (rem, ⟨m, d⟩)

/-- rust/app/src/parser/operations/origination.rs 28-34: `Script`. -/
structure Script where
  code : Bytes
  storage : Bytes
  deriving DecidableEq, Repr

/-- rust/app/src/parser/operations/origination.rs 36-48: `Script::from_bytes`. -/
def Script.fromBytes (i : Bytes) : PRes Script := do
  let (rem, code) ← nLenBytes i
  let (rem, storage) ← nLenBytes rem
  return (rem, ⟨code, storage⟩)

/-- rust/app/src/parser/operations/origination.rs 51-63: `Origination`. -/
structure Origination where
  manager : Manager
  balance : Zarith
  delegate : Option Pkh
  script : Script
  deriving DecidableEq, Repr

/-- rust/app/src/parser/operations/origination.rs 97-128: `Origination::from_bytes_into`. -/
def Origination.fromBytes (i : Bytes) : PRes Origination := do
  let (rem, m) ← Manager.fromBytes i
  let (rem, balance) ← Zarith.fromBytes false rem
  let (rem, has) ← boolean rem
  let (rem, d) ← nCond has publicKeyHash rem
  let (rem, script) ← Script.fromBytes rem
  return (rem, ⟨m, balance, d, script⟩)

/-- rust/app/src/parser/operations/reveal.rs 29-39: `Reveal`. -/
structure Reveal where
  manager : Manager
  pkCurve : Curve
  pk : Bytes
  deriving DecidableEq, Repr

/-- rust/app/src/parser/operations/reveal.rs 68-94: `Reveal::from_bytes_into`. -/
def Reveal.fromBytes (i : Bytes) : PRes Reveal := do
  let (rem, m) ← Manager.fromBytes i
  let (rem, pk) ← publicKey rem
  return (rem, ⟨m, pk.1, pk.2⟩)

/-- rust/app/src/parser/operations/endorsement.rs 30-35 and 45-58: `Endorsement` is its level; an `i32` is
modelled by its 32 bits. -/
def Endorsement.fromBytes (i : Bytes) : PRes UInt32 := nBeU32 i

/-- rust/app/src/parser/operations/endorsement.rs 110-118: `EndorsementWithSlot`. -/
structure EndorsementWithSlot where
  branch : Bytes
  level : UInt32
  signature : Bytes
  slot : UInt16
  deriving DecidableEq, Repr

/-- A signed inner endorsement: rust/app/src/parser/operations/endorsement.rs 154-171 (and 274-291,
295-312): length, branch, tag 0, level, then the rest of the announced length as signature. -/
def innerEndorsement (i : Bytes) : PRes (Bytes × UInt32 × Bytes) := do
  let (rem, length) ← nBeU32 i
  let (rem, branch) ← nTake 32 rem
  let (rem, tag) ← nU8 rem
  if tag ≠ 0 then .error .err
  else do
    let (rem2, level) ← Endorsement.fromBytes rem
    let remLen := rem.length - rem2.length
    if length.toNat < 33 ∨ length.toNat - 33 < remLen then .error .err
    else do
      let (rem, sig) ← nTake (length.toNat - 33 - remLen) rem2
      return (rem, (branch, level, sig))

/-- rust/app/src/parser/operations/endorsement.rs 150-183: `EndorsementWithSlot::from_bytes_into`. -/
def EndorsementWithSlot.fromBytes (i : Bytes) : PRes EndorsementWithSlot := do
  let (rem, e) ← innerEndorsement i
  let (rem, slot) ← nBeU16 rem
  return (rem, ⟨e.1, e.2.1, e.2.2, slot⟩)

/-- rust/app/src/parser/operations/endorsement.rs 258-325: `DoubleEndorsementEvidence::from_bytes`. -/
def DoubleEndorsementEvidence.fromBytes (i : Bytes) :
    PRes ((Bytes × UInt32 × Bytes) × (Bytes × UInt32 × Bytes) × UInt16) := do
  let (rem, e1) ← innerEndorsement i
  let (rem, e2) ← innerEndorsement rem
  let (rem, slot) ← nBeU16 rem
  return (rem, (e1, e2, slot))

/-- `bytemuck::try_cast_slice` to 32-byte arrays when the length is a multiple of 32. -/
def chunks32 (b : Bytes) : List Bytes :=
  if _h : b.length < 32 then [] else b.take 32 :: chunks32 (b.drop 32)
termination_by b.length
decreasing_by simp only [List.length_drop]; omega

/-- rust/app/src/parser/operations/proposals.rs 33-40: `Proposals`. -/
structure Proposals where
  source : Pkh
  period : UInt32
  proposals : List Bytes
  deriving DecidableEq, Repr

/-- rust/app/src/parser/operations/proposals.rs 69-94: `Proposals::from_bytes_into`. -/
def Proposals.fromBytes (i : Bytes) : PRes Proposals := do
  let (rem, source) ← publicKeyHash i
  let (rem, period) ← nBeU32 rem
  let (rem, props) ← nLenBytes rem
  if props.length % 32 ≠ 0 then .error .err
  else return (rem, ⟨source, period, chunks32 props⟩)

/-- rust/app/src/parser/operations/ballot.rs 38-45: `Vote`. -/
inductive Vote where
  | yay | nay | pass
  deriving DecidableEq, Repr

/-- rust/app/src/parser/operations/ballot.rs 47-58: `TryFrom<u8> for Vote`. -/
def Vote.ofByte (b : UInt8) : Option Vote :=
  if b = 0 then some .yay else if b = 1 then some .nay else if b = 2 then some .pass else none

/-- rust/app/src/parser/operations/ballot.rs 60-68: `Ballot`. -/
structure Ballot where
  source : Pkh
  period : UInt32
  proposal : Bytes
  vote : Vote
  deriving DecidableEq, Repr

/-- rust/app/src/parser/operations/ballot.rs 100-128: `Ballot::from_bytes_into`. -/
def Ballot.fromBytes (i : Bytes) : PRes Ballot := do
  let (rem, source) ← publicKeyHash i
  let (rem, period) ← nBeU32 rem
  let (rem, proposal) ← nTake 32 rem
  let (rem, v) ← nU8 rem
  match Vote.ofByte v with
  | none => .error .err
  | some vote => return (rem, ⟨source, period, proposal, vote⟩)

/-- rust/app/src/parser/operations/activate_account.rs 28-34: `ActivateAccount`. -/
structure ActivateAccount where
  pkh : Pkh
  secret : Bytes
  deriving DecidableEq, Repr

/-- rust/app/src/parser/operations/activate_account.rs 58-81: `ActivateAccount::from_bytes_into`. -/
def ActivateAccount.fromBytes (i : Bytes) : PRes ActivateAccount := do
  let (rem, h) ← nTake 20 i
  let (rem, s) ← nTake 20 rem
  return (rem, ⟨⟨.bip32Ed25519, h⟩, s⟩)

/-- rust/app/src/parser/operations/failing_noop.rs 42-54: `FailingNoop::from_bytes_into`. -/
def FailingNoop.fromBytes (i : Bytes) : PRes Bytes := nLenBytes i

/-- rust/app/src/parser/operations/seed_nonce_revelation.rs 31-37: `SeedNonceRevelation::from_bytes`. -/
def SeedNonceRevelation.fromBytes (i : Bytes) : PRes (UInt32 × Bytes) := do
  let (rem, level) ← nBeU32 i
  let (rem, nonce) ← nTake 32 rem
  return (rem, (level, nonce))

/-- rust/app/src/parser/operations/double_baking_evidence.rs 52-86: `Fitnesses::count`, which parses every
(length, bytes) entry of the fitness area until it is used up. -/
def fitnessesCount (b : Bytes) : Except PErr Nat :=
  match b with
  | [] => .ok 0
  | b0 :: bs =>
    match h : nLenBytes (b0 :: bs) with
    | .error e => .error e
    | .ok (rem, _) => do
      let n ← fitnessesCount rem
      return n + 1
termination_by b.length
decreasing_by
  unfold nLenBytes at h
  simp only [ebind_ok, Prod.exists, nBeU32_ok, nTake_ok] at h
  obtain ⟨r, len, hi, hr, -⟩ := h
  rw [hi, hr]
  simp
  omega

/-- rust/app/src/parser/operations/double_baking_evidence.rs 117-135: `FullBlockHeader`. -/
structure FullBlockHeader where
  level : UInt32
  proto : UInt8
  predecessor : Bytes
  timestamp : UInt64
  validationPass : UInt8
  operationHash : Bytes
  numFitnesses : Nat
  fitnesses : Bytes
  context : Bytes
  priority : UInt16
  proofOfWorkNonce : Bytes
  seedNonceHash : Option Bytes
  liquidityBakingEscapeVote : Bool
  signature : Bytes
  deriving DecidableEq, Repr

/-- rust/app/src/parser/operations/double_baking_evidence.rs 137-222: `FullBlockHeader::from_bytes`. -/
def FullBlockHeader.fromBytes (i : Bytes) : PRes FullBlockHeader := do
  let (rem, level) ← nBeU32 i
  let (rem, proto) ← nU8 rem
  let (rem, pred) ← nTake 32 rem
  let (rem, ts) ← nBeU64 rem
  let (rem, vp) ← nU8 rem
  let (rem, oph) ← nTake 32 rem
  let (rem, length) ← nBeU32 rem
  if length.toNat > rem.length then .error .err
  else do
    let fits := rem.take length.toNat
    let rem := rem.drop length.toNat
    let count ← fitnessesCount fits
    let (rem, ctx) ← nTake 32 rem
    let (rem, prio) ← nBeU16 rem
    let (rem, pow) ← nTake 8 rem
    let (rem, hasSeed) ← boolean rem
    let (rem, seed) ← nCond hasSeed (nTake 32) rem
    let (rem, lb) ← boolean rem
    let (rem, sig) ← nTake 64 rem
    return (rem, ⟨level, proto, pred, ts, vp, oph, count, fits, ctx, prio, pow, seed, lb, sig⟩)

/-- rust/app/src/parser/operations/double_baking_evidence.rs 224-245: `DoubleBakingEvidence::from_bytes`. -/
def DoubleBakingEvidence.fromBytes (i : Bytes) : PRes (FullBlockHeader × FullBlockHeader) := do
  let (rem, h1) ← FullBlockHeader.fromBytes i
  let (rem, h2) ← FullBlockHeader.fromBytes rem
  return (rem, (h1, h2))

/-- rust/app/src/parser/operations.rs 227-246: `AnonymousOp::from_bytes` (release variant, which drops the
parsed fields). -/
def anonymousFromBytes (tag : UInt8) (i : Bytes) : PRes Unit :=
  if tag = 1 then do let (rem, _) ← SeedNonceRevelation.fromBytes i; return (rem, ())
  else if tag = 2 then do let (rem, _) ← DoubleEndorsementEvidence.fromBytes i; return (rem, ())
  else if tag = 3 then do let (rem, _) ← DoubleBakingEvidence.fromBytes i; return (rem, ())
  else .error .err

/-- rust/app/src/parser/operations/operation_type.rs 66-88: `OperationType`. -/
inductive Op where
  | transfer (t : Transfer)
  | delegation (d : Delegation)
  | endorsement (level : UInt32)
  | endorsementWithSlot (e : EndorsementWithSlot)
  | ballot (b : Ballot)
  | reveal (r : Reveal)
  | proposals (p : Proposals)
  | origination (o : Origination)
  | activateAccount (a : ActivateAccount)
  | failingNoop (data : Bytes)
  | unknown (data : Bytes)
  | anonymous
  deriving DecidableEq, Repr

/-- Run a parser and tag its value. -/
def nMap {α β : Type} (f : α → β) (p : PRes α) : PRes β := do
  let (rem, a) ← p
  return (rem, f a)

/-- rust/app/src/parser/operations/operation_type.rs 93-245: `OperationType::from_bytes_into`. An unknown
tag swallows the rest of the input, without the tag itself. -/
def Op.fromBytes (i : Bytes) : PRes Op := do
  let (rem, tag) ← nU8 i
  if tag = 0x00 then nMap .endorsement (Endorsement.fromBytes rem)
  else if tag = 0x01 ∨ tag = 0x02 ∨ tag = 0x03 then nMap (fun _ => .anonymous) (anonymousFromBytes tag rem)
  else if tag = 0x04 then nMap .activateAccount (ActivateAccount.fromBytes rem)
  else if tag = 0x05 then nMap .proposals (Proposals.fromBytes rem)
  else if tag = 0x06 then nMap .ballot (Ballot.fromBytes rem)
  else if tag = 0x0A then nMap .endorsementWithSlot (EndorsementWithSlot.fromBytes rem)
  else if tag = 0x11 then nMap .failingNoop (FailingNoop.fromBytes rem)
  else if tag = 0x6B then nMap .reveal (Reveal.fromBytes rem)
  else if tag = 0x6C then nMap .transfer (Transfer.fromBytes rem)
  else if tag = 0x6D then nMap .origination (Origination.fromBytes rem)
  else if tag = 0x6E then nMap .delegation (Delegation.fromBytes rem)
  else return ([], .unknown rem)

/-- rust/app/src/parser/operations.rs 107-136 and 148-160: `EncodedOperations::parse_into` / `parse_next`
on the unread part of the source: `none` at the end, otherwise the operation and what is left. The special
case for a 64-byte rest after `UnknownOperation` (126-128) is dead code: `from_bytes_into` never returns that
error. -/
def parseNext (i : Bytes) : Except PErr (Option (Bytes × Op)) :=
  match i with
  | [] => .ok none
  | _ => do
    let x ← Op.fromBytes i
    return some x

/-- rust/app/src/parser/operations.rs 42-51: `Operation::new`: 32-byte branch and the encoded operations. -/
def operationNew (i : Bytes) : Except PErr (Bytes × Bytes) := do
  let (rem, branch) ← nTake 32 i
  return (branch, rem)

/-! ### References

The parsed operations hold references to the parsed bytes; what they show follows those bytes if they change
(rust/app/src/parser.rs 58-61, rust/app/src/parser/operations/delegation.rs 28-38,
rust/app/src/parser/operations/reveal.rs 29-39). Curves, lengths and the presence of a delegate were read when the
operation was parsed. Only delegations and reveals are kept in this form (rust/app/src/handlers/baking.rs 371-381). -/

/-- The number whose bytes are now at `off` of `b`. -/
def Zarith.reread (z : Zarith) (b : Bytes) (off : Nat) : Zarith := { z with bytes := slice b off z.bytes.length }

/-- Number of bytes of the common fields. -/
def Manager.size (m : Manager) : Nat :=
  21 + m.fee.bytes.length + m.counter.bytes.length + m.gasLimit.bytes.length + m.storageLimit.bytes.length

/-- The common fields, the first of which is now at `off` of `b`. -/
def Manager.reread (m : Manager) (b : Bytes) (off : Nat) : Manager :=
  let o1 := off + 21
  let o2 := o1 + m.fee.bytes.length
  let o3 := o2 + m.counter.bytes.length
  let o4 := o3 + m.gasLimit.bytes.length
  ⟨{ m.source with hash := slice b (off + 1) 20 }, m.fee.reread b o1, m.counter.reread b o2, m.gasLimit.reread b o3,
    m.storageLimit.reread b o4⟩

/-- The operation whose tag is now at the start of `b`. -/
def Op.reread (op : Op) (b : Bytes) : Op :=
  match op with
  | .delegation d =>
    .delegation ⟨d.manager.reread b 1, d.delegate.map fun p => { p with hash := slice b (1 + d.manager.size + 2) 20 }⟩
  | .reveal r => .reveal { r with manager := r.manager.reread b 1, pk := slice b (1 + r.manager.size + 1) r.pk.length }
  | op => op

end Tezos
