import Verif.Operations
/-
The fuzz target for the parser of operations: rust/hfuzz-parser/operations.rs. The other target,
rust/hfuzz-parser/apdu.rs, is not modelled: it calls `zemu_sys::set_out`, which rust/zemu does not define; it hands the
input to `handle_apdu`, which is part of the device.
-/
namespace Tezos

/-- How a loop over operations ends: at the end of the input, at an error, or with the program. -/
inductive LoopEnd where
  | done
  | refused
  | crashed
  deriving DecidableEq, Repr

/-- rust/hfuzz-parser/operations.rs 8: `while let Ok(Some(_)) = encoded_ops.parse_next() {}`, at most `turns` turns; the
operations found, what is left of the input, and how it ended; `none` if it has not ended. `parse_next`
(rust/app/src/parser/operations.rs 148-159) keeps its place in the input if it fails. -/
def parseLoop : Nat → Bytes → Option (List Op × Bytes × LoopEnd)
  | 0, _ => none
  | turns + 1, i =>
    match parseNext i with
    | .error .panic => some ([], i, .crashed)
    | .error .err => some ([], i, .refused)
    | .ok none => some ([], i, .done)
    | .ok (some (rest, op)) => (parseLoop turns rest).map fun x => (op :: x.1, x.2)

/-- rust/hfuzz-parser/operations.rs 5-10: one run of the target. -/
def fuzzOperations (turns : Nat) (data : Bytes) : Option (List Op × Bytes × LoopEnd) :=
  match operationNew data with
  | .error .panic => some ([], data, .crashed)
  | .error .err => some ([], data, .refused)
  | .ok (_, ops) => parseLoop turns ops

end Tezos
