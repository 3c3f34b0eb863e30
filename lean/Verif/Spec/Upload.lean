import Verif.Bytes
/-
Specification of chunked uploads, independent of the model: an upload session, as an outside observer who
sees the packets and whether each was acknowledged would describe it. `φ` is the type of command families.
-/
namespace Spec
open Tezos (Bytes)

/-- One packet: command family, the p1 and p2 bytes and the payload. -/
structure Packet (φ : Type) where
  family : φ
  p1 : UInt8
  p2 : UInt8
  payload : Bytes

/-- The role a packet plays, by its p1 byte. -/
inductive Role where
  | opening | middle | closing
  deriving DecidableEq, Repr

def role (p1 : UInt8) : Option Role :=
  if p1 = 0x00 ∨ p1 = 0x80 then some .opening
  else if p1 = 0x01 ∨ p1 = 0x03 then some .middle
  else if p1 = 0x02 ∨ p1 = 0x81 ∨ p1 = 0x83 then some .closing
  else none

/-- What the observer sees of a packet: acknowledged, refused with an error, it completed the upload, or
power was lost while it was handled (and the app was started again). -/
inductive Seen where
  | acked | refused | completed | powerLost
  deriving DecidableEq, Repr

/-- An open upload: who opened it, the opening packet's p2 and payload, and the concatenation of the
payloads acknowledged since. -/
structure Session (φ : Type) where
  family : φ
  p2 : UInt8
  first : Bytes
  rest : Bytes

/-- The open session after one more packet. -/
def after {φ : Type} (s : Option (Session φ)) (k : Packet φ) (seen : Seen) : Option (Session φ) :=
  match role k.p1, seen with
  | _, .powerLost => none
  | some .opening, .acked => some ⟨k.family, k.p2, k.payload, []⟩
  | some .opening, _ => none
  | some .middle, .acked => s.map fun s => { s with rest := s.rest ++ k.payload }
  | some .closing, .completed => none
  | _, _ => s

/-- The open session after a history of packets with what was seen of each. -/
def sessionOf {φ : Type} : Option (Session φ) → List (Packet φ × Seen) → Option (Session φ)
  | s, [] => s
  | s, (k, seen) :: h => sessionOf (after s k seen) h

/-- The family of the last opening packet that has not been followed by a completed upload or a power
loss, whether or not the opening packet was acknowledged. -/
def owner {φ : Type} (o : Option φ) (k : Packet φ) (seen : Seen) : Option φ :=
  match role k.p1, seen with
  | _, .powerLost => none
  | some .opening, _ => some k.family
  | some .closing, .completed => none
  | _, _ => o

def ownerOf {φ : Type} : Option φ → List (Packet φ × Seen) → Option φ
  | o, [] => o
  | o, (k, seen) :: h => ownerOf (owner o k seen) h

/-- Size of the buffer an upload must fit, including the byte for p2. -/
def uploadCapacity : Nat := 8191

/-- One more packet on a device whose flash works: the open session afterwards and, for a packet completing the upload,
what the command is given (p2 and payload of the opening packet, and the data). -/
def feed {φ : Type} [DecidableEq φ] (s : Option (Session φ)) (k : Packet φ) :
    Option (Session φ) × Option (UInt8 × Bytes × Bytes) :=
  match role k.p1, s with
  | some .opening, _ => (some ⟨k.family, k.p2, k.payload, []⟩, none)
  | some .middle, some s =>
    if s.family = k.family ∧ 1 + s.first.length + s.rest.length + k.payload.length ≤ uploadCapacity then
      (some { s with rest := s.rest ++ k.payload }, none)
    else (some s, none)
  | some .closing, some s =>
    if s.family = k.family ∧ 1 + s.first.length + s.rest.length + k.payload.length ≤ uploadCapacity then
      (none, some (s.p2, s.first, s.rest ++ k.payload))
    else (some s, none)
  | _, s => (s, none)

/-- Whether a packet that does not complete an upload is acknowledged on a device whose flash works. -/
def acks {φ : Type} [DecidableEq φ] (s : Option (Session φ)) (k : Packet φ) : Bool :=
  match role k.p1, s with
  | some .opening, _ => true
  | some .middle, some s =>
    decide (s.family = k.family ∧ 1 + s.first.length + s.rest.length + k.payload.length ≤ uploadCapacity)
  | _, _ => false

end Spec
