import Mathlib.Data.List.Forall2
import Verif.Spec.Display
import Verif.Gen
/-
Specification of the forging of operations by a node: which operation of the protocol a description in JSON stands for.
Texts are specified by what they stand for. And when there is only one text for an item of a review.
-/
namespace Spec
open Tezos (Bytes ascii be32 knownBakers Content Michelson)

/-- The primitives of Michelson that the generators use, with their bytes in the binary encoding. -/
def michelsonPrims : List (String × UInt8) :=
  [("parameter", 0x00), ("storage", 0x01), ("code", 0x02), ("Unit", 0x0b), ("unit", 0x6c)]

/-- The binary encoding of a primitive without annotations: 3 and its byte if it has no argument; 5, its byte and the
argument if it has one. -/
def michelsonEncode : Michelson → Option Bytes
  | .prim name none => do return [3, ← michelsonPrims.lookup name]
  | .prim name (some arg) => do return [5, ← michelsonPrims.lookup name, 3, ← michelsonPrims.lookup arg]

/-- The binary encoding of a sequence: 2, the length on four bytes, and the elements. -/
def michelsonSequence (l : List Michelson) : Option Bytes := do
  let es ← l.mapM michelsonEncode
  return 2 :: withLength es.flatten

/-- The texts of the fields of a manager stand for `m`. -/
def ManagerTexts (h : Hashes) (source fee gasLimit storageLimit counter : Bytes) (m : ManagerFields) : Prop :=
  IsAddress h m.source source ∧ IsDecimal fee m.fee ∧ IsDecimal gasLimit m.gasLimit ∧
    IsDecimal storageLimit m.storageLimit ∧ IsDecimal counter m.counter

/-- An optional account. -/
def OptionalAddress (h : Hashes) : Option Bytes → Option Account → Prop
  | none, none => True
  | some t, some a => IsAddress h a t
  | _, _ => False

/-- A number that fits in 32 bits with a sign. -/
def IsInt32 (n : Nat) (x : UInt32) : Prop := n < 2 ^ 31 ∧ x.toNat = n

/-- The description stands for the operation. -/
def Forges (h : Hashes) : Content → Operation → Prop
  | .transaction src dst amount fee gas sto ctr, .transfer m a d call =>
    ManagerTexts h src fee gas sto ctr m ∧ IsDecimal amount a ∧ call = none ∧ ∃ acc, d = .account acc ∧ IsAddress h acc dst
  | .delegation src delegate fee gas sto ctr, .delegation m d =>
    ManagerTexts h src fee gas sto ctr m ∧ OptionalAddress h delegate d
  | .reveal src pk fee gas sto ctr, .reveal m kind key =>
    ManagerTexts h src fee gas sto ctr m ∧ IsBase58Check h kind.keyPrefix key pk
  | .origination src delegate balance fee gas sto ctr code storage, .origination m b d c s =>
    ManagerTexts h src fee gas sto ctr m ∧ IsDecimal balance b ∧ OptionalAddress h delegate d ∧
      michelsonSequence code = some c ∧ michelsonEncode storage = some s
  | .ballot src period proposal vote, .ballot s p hash v =>
    IsAddress h s src ∧ IsInt32 period p ∧ IsBase58Check h [2, 170] hash proposal ∧
      vote = ascii (match v with | .yay => "yay" | .nay => "nay" | .pass => "pass")
  | .proposals src period props, .proposals s p ps =>
    IsAddress h s src ∧ IsInt32 period p ∧ List.Forall₂ (IsBase58Check h [2, 170]) ps props
  | .endorsement n, .endorsement l => IsInt32 n l
  | .activation pkh secret, .activateAccount hash s => IsAddress h ⟨.ed25519, hash⟩ pkh ∧ readHex secret = some s
  | .seed n nonce, .seedNonceRevelation l s => IsInt32 n l ∧ readHex nonce = some s
  | _, _ => False

/-- There is at most one name for the baker. -/
def Shown.OneName : Shown → Prop
  | .baker a => ∀ b ∈ knownBakers, ∀ c ∈ knownBakers, b.pfx = a.kind.addressPrefix → b.hash = a.hash →
      c.pfx = a.kind.addressPrefix → c.hash = a.hash → b.name = c.name
  | _ => True

/-- An account has no registered name. -/
def Unregistered (a : Account) : Prop := ∀ b ∈ knownBakers, ¬ (b.pfx = a.kind.addressPrefix ∧ b.hash = a.hash)

end Spec
