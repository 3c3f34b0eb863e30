import Verif.Spec.Answers
/-
The app as a machine of five registers, driven by what passes over its ports: the requests, which of them are not
answered at once, the approvals that are answered with success, and restarts. What the registers do not keep does not
matter for the answers. Of the model it uses the names of the two builds and of the two families of signing commands.
-/
namespace Spec
open Tezos (Bytes Build Accessor slice)

/-- What the user was last asked for, as far as it matters later. Keys are given by the byte of the curve and the path as
sent in commands. -/
inductive Question where
  | authorize (key : UInt8 × Bytes)
  | deauthorize
  | setup (key : UInt8 × Bytes) (level : Nat)
  | other
  deriving DecidableEq

/-- The registers. -/
structure Registers where
  /-- the authorized key -/
  key : Option (UInt8 × Bytes)
  /-- the item after which the next signed one must come -/
  mark : Option Item
  /-- the message being uploaded -/
  sess : Option (Session Accessor)
  /-- what the user was last asked for -/
  question : Question
  /-- whether the app runs -/
  on : Bool

/-- The registers of a new device. -/
def Registers.new : Registers := ⟨none, none, none, .other, true⟩

/-- What can be seen at the ports of the device. -/
inductive Sight where
  /-- a request, and whether its answer is not there at once -/
  | request (ins p1 p2 : UInt8) (data : Bytes) (late : Bool)
  /-- the user did something that is answered with 0x9000 -/
  | agreed
  /-- the app is started -/
  | started
  /-- anything else -/
  | nothing
  deriving DecidableEq

/-- The item of a level that was set. -/
def levelMark (level : Nat) : Item := ⟨0, level, 0, 0⟩

/-- What a request asks the user for, if it does. The data of a setup are the chain, two levels and the path. -/
def questionOf (ins p2 : UInt8) (data : Bytes) : Question :=
  if ins ∈ [0x01, 0xA1] then .authorize (p2, data)
  else if ins ∈ [0x0C, 0xAC] then .deauthorize
  else if ins = 0x0A then .setup (p2, slice data 12 (1 + 4 * (data.getD 12 0).toNat)) (u32At data 4)
  else .other

/-- The signing commands, by family. -/
def signingFamily (b : Build) (ins : UInt8) : Option Accessor :=
  match b with
  | .wallet => if ins ∈ [0x04, 0x05, 0x0F, 0x12] then some .sign else none
  | .baking => if ins = 0x12 then some .sign else if ins ∈ [0x04, 0x0F, 0xAF] then some .baking else none

/-- What the machine answers to a request. -/
def Registers.answer (b : Build) (r : Registers) (ins p1 p2 : UInt8) (data : Bytes) : Answer :=
  Spec.answer b r.key r.mark r.sess ins p1 p2 data

/-- Whether the app still runs after this answer. -/
def Answer.goesOn : Answer → Bool
  | .stops => false
  | _ => true

/-- The registers after a request that is answered with `a`. -/
def Registers.request (b : Build) (r : Registers) (ins p1 p2 : UInt8) (data : Bytes) (late : Bool) (a : Answer) :
    Registers where
  key := r.key
  mark :=
    match a with
    | .signed msg => consensusItem msg
    | _ => if b = .baking ∧ ins = 0x06 ∧ 4 ≤ data.length then some (levelMark (u32At data 0)) else r.mark
  sess :=
    match signingFamily b ins with
    | some f => (feed r.sess ⟨f, p1, p2, data⟩).1
    | none => r.sess
  question := if late then questionOf ins p2 data else r.question
  on := a.goesOn

/-- The registers after the user agreed to what was asked. -/
def Registers.agree (r : Registers) : Registers :=
  match r.question with
  | .authorize k => { r with key := some k }
  | .deauthorize => { r with key := none }
  | .setup k l => { r with key := some k, mark := some (levelMark l) }
  | .other => r

/-- One step of the machine. -/
def Registers.next (b : Build) (r : Registers) : Sight → Registers
  | .request ins p1 p2 data late =>
    if r.on then r.request b ins p1 p2 data late (r.answer b ins p1 p2 data) else r
  | .agreed => r.agree
  | .started => { r with sess := none, on := true }
  | .nothing => r

/-- The registers after all that was seen. -/
def registers (b : Build) (seen : List Sight) : Registers := seen.foldl (Registers.next b) .new

end Spec
