import Verif.Nom
import Verif.Watermark
/-
Consensus message parsers: rust/app/src/parser.rs 224-269, rust/app/src/parser/baking.rs,
rust/app/src/parser/baking/emmy.rs, rust/app/src/parser/baking/tenderbake.rs.
-/
namespace Tezos

/-- rust/app/src/parser.rs 228-252: `Preemble`. -/
inductive Preamble where
  | block | endorsement | operation | tbd | michelson
  | tenderbakeBlock | tenderbakePreendorsement | tenderbakeEndorsement
  deriving DecidableEq, Repr

/-- rust/app/src/parser.rs 255-268: `Preemble::from_bytes`. -/
def Preamble.parse (i : Bytes) : PRes Preamble := do
  let (r, b) ← nU8 i
  if b = 0x01 then .ok (r, .block)
  else if b = 0x02 then .ok (r, .endorsement)
  else if b = 0x03 then .ok (r, .operation)
  else if b = 0x04 then .ok (r, .tbd)
  else if b = 0x05 then .ok (r, .michelson)
  else if b = 0x11 then .ok (r, .tenderbakeBlock)
  else if b = 0x12 then .ok (r, .tenderbakePreendorsement)
  else if b = 0x13 then .ok (r, .tenderbakeEndorsement)
  else .error .err

/-- rust/app/src/parser/baking/emmy.rs 26-30: `EmmyEndorsement`. -/
structure EmmyEndorsement where
  chainId : UInt32
  branch : Bytes
  level : UInt32
  deriving DecidableEq, Repr

/-- rust/app/src/parser/baking/emmy.rs 36-51: `EmmyEndorsement::from_bytes`. -/
def EmmyEndorsement.parse (i : Bytes) : PRes EmmyEndorsement := do
  let (r, chainId) ← nBeU32 i
  let (r, branch) ← nTake 32 r
  let (r, _) ← nTag1 0 r
  let (r, level) ← nBeU32 r
  return (r, { chainId, branch, level })

/-- rust/app/src/parser/baking/emmy.rs 54-64: `validate_with_watermark`. -/
def EmmyEndorsement.validate (x : EmmyEndorsement) (hw : WaterMark) : Bool :=
  isValidBlockLevel x.level &&
    match hw with
    | .emmy level hadEndorsement => decide (x.level > level) || (level == x.level && !hadEndorsement)
    | .tenderbake .. => false

/-- rust/app/src/parser/baking/emmy.rs 67-72: `EmmyFitness`. -/
structure EmmyFitness where
  proto : UInt8
  fitness : Bytes
  deriving DecidableEq, Repr

/-- rust/app/src/parser/baking/emmy.rs 79-95: `EmmyFitness::from_bytes`; `alt` of the two tags. -/
def EmmyFitness.parse (i : Bytes) : PRes EmmyFitness := do
  let (r, _) ← nTake 4 i
  let (r, proto) ← match nTag1 0 r with
    | .ok x => .ok x
    | .error .panic => .error .panic
    | .error .err => nTag1 1 r
  return (r, { proto, fitness := r })

/-- rust/app/src/parser/baking/tenderbake.rs 24-42: `EndorsementType`. -/
inductive EndorsementType where
  | preendorsement | endorsement
  deriving DecidableEq, Repr

/-- rust/app/src/parser/baking/tenderbake.rs 35-41: `from_tag`. -/
def EndorsementType.ofTag (t : UInt8) : Option EndorsementType :=
  if t = 20 then some .preendorsement else if t = 21 then some .endorsement else none

/-- rust/app/src/parser/baking/tenderbake.rs 44-53: `TenderbakeEndorsement`. -/
structure TenderbakeEndorsement where
  chainId : UInt32
  branch : Bytes
  ty : EndorsementType
  slot : UInt16
  level : UInt32
  round : UInt32
  blockPayloadHash : Bytes
  deriving DecidableEq, Repr

/-- rust/app/src/parser/baking/tenderbake.rs 57-83: `TenderbakeEndorsement::from_bytes`. -/
def TenderbakeEndorsement.parse (i : Bytes) : PRes TenderbakeEndorsement := do
  let (r, chainId) ← nBeU32 i
  let (r, branch) ← nTake 32 r
  let (r, tag) ← nU8 r
  match EndorsementType.ofTag tag with
  | none => .error .err
  | some ty =>
    let (r, slot) ← nBeU16 r
    let (r, level) ← nBeU32 r
    let (r, round) ← nBeU32 r
    let (r, blockPayloadHash) ← nTake 32 r
    return (r, { chainId, branch, ty, slot, level, round, blockPayloadHash })

/-- rust/app/src/parser/baking/tenderbake.rs 86-116: `validate_with_watermark`. -/
def TenderbakeEndorsement.validate (x : TenderbakeEndorsement) (hw : WaterMark) : Bool :=
  isValidBlockLevel x.level &&
    match hw with
    | .emmy .. => true
    | .tenderbake level hadEndorsement round hadPreendorsement =>
      decide (x.level > level)
        || (x.level == level && decide (x.round > round))
        || (x.level == level && x.round == round && x.ty == .endorsement && !hadEndorsement)
        || (x.level == level && x.round == round && x.ty == .preendorsement && !hadEndorsement
            && !hadPreendorsement)

/-- rust/app/src/parser/baking/tenderbake.rs 119-124: `TenderbakeFitness`. -/
structure TenderbakeFitness where
  fitness : Bytes
  round : UInt32
  deriving DecidableEq, Repr

/-- rust/app/src/parser/baking/tenderbake.rs 130-145: `TenderbakeFitness::from_bytes`. Line 136 indexes
`rem[rem.len() - 4..]`: with fewer than 4 bytes left the subtraction underflows and the app aborts. -/
def TenderbakeFitness.parse (i : Bytes) : PRes TenderbakeFitness := do
  let (r, _) ← nTake 4 i
  let (r, _) ← nTag1 2 r
  if r.length < 4 then .error .panic else
  let (_, round) ← nBeU32 (r.drop (r.length - 4))
  return (r, { fitness := r, round })

/-- rust/app/src/parser/baking.rs 165-170: `Fitness`. -/
inductive Fitness where
  | emmy (f : EmmyFitness)
  | tenderbake (f : TenderbakeFitness)
  deriving DecidableEq, Repr

/-- rust/app/src/parser/baking.rs 180-191: `Fitness::from_bytes`; both parsers are always run. -/
def Fitness.parse (i : Bytes) : PRes Fitness :=
  match EmmyFitness.parse i, TenderbakeFitness.parse i with
  | .error .panic, _ => .error .panic
  | _, .error .panic => .error .panic
  | .ok (r, f), .error .err => .ok (r, .emmy f)
  | .error .err, .ok (r, f) => .ok (r, .tenderbake f)
  | .error .err, .error .err => .error .err
  | .ok _, .ok _ => .error .panic  -- `unreachable!()`

/-- rust/app/src/parser/baking.rs 39-50: `BlockData`. -/
structure BlockData where
  chainId : UInt32
  level : UInt32
  proto : UInt8
  predecessor : Bytes
  timestamp : UInt64
  validationPass : UInt8
  operationHash : Bytes
  fitness : Fitness
  deriving DecidableEq, Repr

/-- rust/app/src/parser/baking.rs 53-84: `BlockData::from_bytes`. The remainder returned is the one of
the fitness; what follows the fitness is never looked at. -/
def BlockData.parse (i : Bytes) : PRes BlockData := do
  let (r, chainId) ← nBeU32 i
  let (r, level) ← nBeU32 r
  let (r, proto) ← nU8 r
  let (r, predecessor) ← nTake 32 r
  let (r, timestamp) ← nBeU64 r
  let (r, validationPass) ← nU8 r
  let (r, operationHash) ← nTake 32 r
  let (r, fitnessSize) ← nBeU32 r
  let (_, fitness) ← nTake fitnessSize.toNat r
  let (r, fitness) ← Fitness.parse fitness
  return (r, { chainId, level, proto, predecessor, timestamp, validationPass, operationHash, fitness })

/-- rust/app/src/parser/baking.rs 87-104: `BlockData::validate_with_watermark`. -/
def BlockData.validate (x : BlockData) (hw : WaterMark) : Bool :=
  isValidBlockLevel x.level &&
    match hw, x.fitness with
    | .emmy level _, .emmy _ => decide (x.level > level)
    | .tenderbake .., .emmy _ => false
    | .emmy .., .tenderbake _ => true
    | .tenderbake level _ round _, .tenderbake f =>
      decide (x.level > level) || (x.level == level && decide (f.round > round))

/-- rust/app/src/parser/baking.rs 106-119: `BlockData::derive_watermark`. -/
def BlockData.deriveWatermark (x : BlockData) : WaterMark :=
  match x.fitness with
  | .emmy _ => .emmy x.level false
  | .tenderbake f => .tenderbake x.level false f.round false

/-- rust/app/src/parser/baking.rs 194-197: `EndorsementData`. -/
inductive EndorsementData where
  | emmy (x : EmmyEndorsement)
  | tenderbake (x : TenderbakeEndorsement)
  deriving DecidableEq, Repr

/-- rust/app/src/parser/baking.rs 242-251: `EndorsementData::from_bytes`, Emmy first. -/
def EndorsementData.parse (i : Bytes) : PRes EndorsementData :=
  match EmmyEndorsement.parse i with
  | .ok (r, x) => .ok (r, .emmy x)
  | .error .panic => .error .panic
  | .error .err =>
    match TenderbakeEndorsement.parse i with
    | .ok (r, x) => .ok (r, .tenderbake x)
    | .error e => .error e

/-- rust/app/src/parser/baking.rs 253-258: `EndorsementData::validate_with_watermark`. -/
def EndorsementData.validate (x : EndorsementData) (hw : WaterMark) : Bool :=
  match x with
  | .emmy e => e.validate hw
  | .tenderbake t => t.validate hw

/-- rust/app/src/parser/baking.rs 260-289: `EndorsementData::derive_watermark`. -/
def EndorsementData.deriveWatermark : EndorsementData → WaterMark
  | .emmy e => .emmy e.level true
  | .tenderbake t =>
    match t.ty with
    | .endorsement => .tenderbake t.level true t.round true
    | .preendorsement => .tenderbake t.level false t.round true

end Tezos
