import Verif.Host
import Verif.Bip32
/-
What the integration tests on a computer have in common: rust/app/tests/prelude.rs, rust/app/tests/baking_prelude.rs, and
the test `baking_flow` of rust/app/tests/baking.rs. A failed assertion or a panic is `none`.
-/
namespace Tezos

/-- The command in the buffer of rust/app/tests/prelude.rs 58-61. `APDUCommand::serialize` is of the crate `ledger_apdu`:
the class, the instruction, the parameters, the length and the data. -/
def testBuffer (ins p1 p2 : UInt8) (data : Bytes) : Bytes :=
  [0x80, ins, p1, p2, UInt8.ofNat data.length] ++ data ++ List.replicate (255 - data.length) 0

/-- `APDUAnswer::retcode` of the crate `ledger_apdu`: the last two bytes. -/
def retcode (a : Bytes) : Nat := (a.getD (a.length - 2) 0).toNat * 256 + (a.getD (a.length - 1) 0).toNat

/-- The answer in the buffer, rust/app/tests/prelude.rs 70-79. One without a status word panics (79). -/
def testAnswer (r : Dev × Output) : Option (Dev × Bytes) :=
  match r.2.reply with
  | none => none
  | some a => if a.length < 2 then none else some (r.1, a)

/-- rust/app/tests/prelude.rs 55-80: `process_apdu`, see `Dev.hostApdu`. A command that does not fit into the buffer
panics (61). -/
def Dev.processApdu (cfg : Config) (env : Env) (ins p1 p2 : UInt8) (data : Bytes) (s : Dev) : Option (Dev × Bytes) :=
  if data.length > 255 then none else
  testAnswer (s.hostApdu cfg env (testBuffer ins p1 p2 data) (5 + data.length))

/-- `slice::chunks`, with `USER_MESSAGE_CHUNK_SIZE` of rust/app/tests/prelude.rs 82. -/
def testChunks (m : Bytes) : List Bytes := (List.range ((m.length + 249) / 250)).map fun k => slice m (250 * k) 250

/-- The loop of rust/app/tests/prelude.rs 106-127, with the answer so far. `PacketType` is `Add`, 1, or `Last`, 2
(`ZPacketType`, rust/app/src/handlers/utils.rs 21-44). -/
def Dev.sendChunks (cfg : Config) (env : Env) (ins : UInt8) : List Bytes → Dev → Bytes → Option (Dev × Bytes)
  | [], s, a => some (s, a)
  | c :: cs, s, a =>
    if retcode a ≠ 0x9000 then some (s, a) else
    match s.processApdu cfg env ins (if cs = [] then 2 else 1) 0 c with
    | none => none
    | some (s, a) => Dev.sendChunks cfg env ins cs s a

/-- rust/app/tests/prelude.rs 84-132: `process_apdu_chunks`, for a command with the given instruction, second parameter
and data. -/
def Dev.processChunks (cfg : Config) (env : Env) (ins p2 : UInt8) (data message : Bytes) (s : Dev) :
    Option (Dev × Bytes) :=
  let chunks := testChunks message
  if chunks.length = 0 ∨ 255 < chunks.length then none else
  match s.processApdu cfg env ins 0 p2 data with
  | none => none
  | some (s, a) => Dev.sendChunks cfg env ins chunks s a

/-- rust/app/tests/prelude.rs 47-53: `prepare_path`. The addition panics on overflow in tests. -/
def preparePath (path : List UInt32) : Option Bytes :=
  if 256 ≤ path.length ∨ ∃ n ∈ path, 0x80000000 ≤ n then none else
  match Path.new 10 (path.map (0x80000000 + ·)) with
  | .ok p => some p.serialize
  | _ => none

/-- The answer is asserted to be a success. -/
def succeeds : Option (Dev × Bytes) → Option Dev
  | some (s, a) => if retcode a = 0x9000 then some s else none
  | none => none

/-- rust/app/tests/baking_prelude.rs 23-34: `reset_state`. -/
def Dev.resetState (cfg : Config) (env : Env) (level : UInt32) (s : Dev) : Option Dev :=
  succeeds (s.processApdu cfg env 0x06 0 0 (be32 level))

/-- rust/app/tests/baking_prelude.rs 36-47: `authorize_baking`. -/
def Dev.authorizeTest (cfg : Config) (env : Env) (path : List UInt32) (curve : UInt8) (s : Dev) : Option Dev :=
  (preparePath path).bind fun data => succeeds (s.processApdu cfg env 0xA1 1 curve data)

/-- rust/app/tests/baking.rs 45-58: the loop over the samples. -/
def Dev.signAll (cfg : Config) (env : Env) (curve : UInt8) (data : Bytes) : List Bytes → Dev → Option Dev
  | [], s => some s
  | m :: ms, s =>
    (succeeds (s.processChunks cfg env 0xAF curve data m)).bind (Dev.signAll cfg env curve data ms)

/-- rust/app/tests/baking.rs 29-59: `baking_flow`, for any path, curve and samples, and any state of the memory. The other
tests of this file (61-128) are this one with other samples. -/
def Dev.bakingFlow (cfg : Config) (env : Env) (path : List UInt32) (curve : UInt8) (samples : List Bytes) (s : Dev) :
    Option Dev :=
  (s.resetState cfg env 0).bind fun s =>
  (s.authorizeTest cfg env path curve).bind fun s =>
  (preparePath path).bind fun data =>
  s.signAll cfg env curve data samples

end Tezos
