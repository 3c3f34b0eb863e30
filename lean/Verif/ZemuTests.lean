import Verif.Props.Zui
import Verif.Client
/-
The integration tests that run on an emulated device: zemu/tests.

Zemu itself is not part of the repository. What is modelled are the sequences of presses that the tests ask for, the
messages they build, and what they expect of the answers.
-/
namespace Tezos

/-- What the tests of the test vectors and of the sample operations press: zemu/tests/testvectors.test.ts 44-51 and
105-112. -/
def toTheEnd : List Button := List.replicate 30 .right ++ [.left, .both]

/-- What a test presses that knows how many screens there are: `navigateAndCompareSnapshots` with the steps `[n, 0]`, where
a number asks for that many presses of the right button and zero for both buttons (zemu/tests/baking.test.ts 253, 283, 292
and 339; 272-275, 305-308 and alike press the buttons one by one). -/
def navigate (n : Nat) : List Button := List.replicate n .right ++ [.both]

/-! ### Messages for the baker -/

/-- `writeUInt8`, `writeUInt16BE`, `writeUInt32BE` and `writeBigUint64BE` of a `Buffer` of 100 bytes, of which `buf` are
written so far, as zemu/tests/baking_utils.ts uses them, with `w` bytes; `none` when they throw, which they do for numbers
out of range and at the end of the buffer. Negative and fractional numbers are left out. -/
def put (w n : Nat) (buf : Bytes) : Option Bytes :=
  if n < 256 ^ w ∧ buf.length + w ≤ 100 then some (buf ++ beEnc w n) else none

/-- `copy` into the buffer of 100 bytes: what does not fit is left out (zemu/tests/baking_utils.ts 6, 25, 39, 42, 58). -/
def copyTo (x buf : Bytes) : Bytes := buf ++ x.take (100 - buf.length)

/-- The types of zemu/tests/baking_utils.ts 1. -/
inductive BlobType where
  | emmy | endorsement | preendorsement
  deriving DecidableEq, Repr

/-- zemu/tests/baking_utils.ts 1-30: `get_endorsement_info`; `none` when it throws, as it does where a round is needed and
there is none. -/
def getEndorsementInfo (chain : Nat) (branch : Bytes) (level : Nat) (type : BlobType) (round : Option Nat) :
    Option Bytes := do
  let r ← put 4 chain []
  let r := copyTo branch r
  match type with
  | .emmy => put 4 level (← put 1 0 r)
  | _ =>
    let r ← put 1 (if type = .preendorsement then 20 else 21) r
    let r ← put 2 0 r
    let r ← put 4 level r
    let r ← put 4 (← round) r
    return copyTo (List.replicate 32 0) r

/-- zemu/tests/baking_utils.ts 45-56: the fitness. A round of zero counts as none, since `if (round)` tells them apart no
more. -/
def blockFitness (round : Option Nat) : Option Bytes :=
  match round with
  | none | some 0 => some (List.replicate 5 1)
  | some r => if r < 256 ^ 4 then some (List.replicate 5 2 ++ beEnc 4 r) else none

/-- zemu/tests/baking_utils.ts 32-61: `get_blocklevel_info`; `none` when it throws. -/
def getBlocklevelInfo (chain level : Nat) (round : Option Nat) : Option Bytes := do
  let r ← put 4 chain []
  let r ← put 4 level r
  let r ← put 1 42 r
  let r := copyTo (List.replicate 32 0) r
  let r ← put 8 0 r
  let r ← put 1 0 r
  let r := copyTo (List.replicate 32 0) r
  let fitness ← blockFitness round
  let r ← put 4 fitness.length r
  return copyTo fitness r

/-- A call of `signBaker` in a test: the message, if it can be built, and whether the test expects success. -/
structure ZemuCall where
  kind : BakerMessage
  built : Option Bytes
  ok : Bool

/-- The branch of the tests: `Buffer.alloc(32)`. -/
def noBranch : Bytes := List.replicate 32 0

/-- zemu/tests/baking.test.ts 383-413, for the level 2. -/
def emmyEndorsementTest (level : Nat) : List ZemuCall :=
  [⟨.endorsement, getEndorsementInfo 0 noBranch level .emmy none, true⟩]

/-- zemu/tests/baking.test.ts 415-446, for the level 123456. -/
def emmyBlockTest (level : Nat) : List ZemuCall := [⟨.blocklevel, getBlocklevelInfo 0 level none, true⟩]

/-- zemu/tests/baking.test.ts 448-489, for the level 5. -/
def emmyBothTest (level : Nat) : List ZemuCall :=
  [⟨.blocklevel, getBlocklevelInfo 0 level none, true⟩,
   ⟨.blocklevel, getBlocklevelInfo 0 level none, false⟩,
   ⟨.endorsement, getEndorsementInfo 0 noBranch level .emmy none, true⟩]

/-- zemu/tests/baking.test.ts 493-523, for the level 2. -/
def tenderbakeEndorsementTest (level : Nat) : List ZemuCall :=
  [⟨.endorsement, getEndorsementInfo 0 noBranch level .endorsement (some 0), true⟩]

/-- zemu/tests/baking.test.ts 525-556, for the level 123456. -/
def tenderbakeBlockTest (level : Nat) : List ZemuCall := [⟨.blocklevel, getBlocklevelInfo 0 level (some 0), true⟩]

/-- zemu/tests/baking.test.ts 558-613, for the level 5. -/
def tenderbakeBothTest (level : Nat) : List ZemuCall :=
  [⟨.blocklevel, getBlocklevelInfo 0 level (some 0), true⟩,
   ⟨.blocklevel, getBlocklevelInfo 0 level (some 0), false⟩,
   ⟨.blocklevel, getBlocklevelInfo 0 level (some 1), true⟩,
   ⟨.endorsement, getEndorsementInfo 0 noBranch level .preendorsement (some 1), true⟩,
   ⟨.endorsement, getEndorsementInfo 0 noBranch level .endorsement (some 1), true⟩]

end Tezos
