import Verif.Spec.Consensus
import Verif.Spec.Operations
import Verif.Spec.Upload
import Verif.Device
/-
Specification of how a request is answered: a table over the bytes of the request and what the host can know of the
device, which are the authorized key, the watermark and the open upload. Of the model it uses the names of the two builds
and of the two families of signing commands.
-/
namespace Spec
open Tezos (Bytes Build Accessor)

/-- How a request is answered. -/
inductive Answer where
  /-- with this status word alone -/
  | refused (word : Nat)
  /-- at once, with data and 0x9000 -/
  | served
  /-- at once, with a signature of this message and 0x9000 -/
  | signed (msg : Bytes)
  /-- after asking the user -/
  | asked
  /-- after asking the user if `p`, otherwise with 0x6984 -/
  | askedIf (p : Prop)
  /-- with 0x6984 or 0x6986 -/
  | declined
  /-- not at all: the app stops -/
  | stops

/-- A number of path components, at least 1 and at most `max`, and that many components of 4 bytes. -/
def IsPath (max : Nat) : Bytes → Prop
  | [] => False
  | n :: body => 1 ≤ n.toNat ∧ n.toNat ≤ max ∧ body.length = 4 * n.toNat

instance (max : Nat) : (d : Bytes) → Decidable (IsPath max d)
  | [] => isFalse id
  | _ :: _ => inferInstanceAs (Decidable (_ ∧ _))

/-- For requests naming a key: `ok` if the curve and the path are in order. -/
def withKeyName (max : Nat) (curve : UInt8) (path : Bytes) (ok : Answer) : Answer :=
  if 3 < curve.toNat then .refused 0x6B00
  else if IsPath max path then ok
  else .refused 0x6984

/-- An account: the tag of the kind of its key, and a hash. -/
def IsAccountField (b : Bytes) : Prop := ∃ (kind : KeyKind) (hash : Bytes), b = kind.tag :: hash ∧ hash.length = 20

/-- The fields common to the operations of an account's manager. -/
def IsManagerFields (b : Bytes) : Prop :=
  ∃ source fee counter gas storage, b = source ++ fee ++ counter ++ gas ++ storage ∧ IsAccountField source ∧
    IsZarith fee ∧ IsZarith counter ∧ IsZarith gas ∧ IsZarith storage

/-- Begins like the body of a reveal: the manager's fields and a public key. -/
def BeginsReveal (b : Bytes) : Prop :=
  ∃ m, ∃ kind : KeyKind, ∃ key rest, b = m ++ kind.tag :: key ++ rest ∧ IsManagerFields m ∧ key.length = kind.keyLength

/-- Begins like the body of a delegation: the manager's fields, and 0xFF and an account or another byte. -/
def BeginsDelegation (b : Bytes) : Prop :=
  ∃ m flag rest, b = m ++ flag :: rest ∧ IsManagerFields m ∧
    (flag = 0xFF → ∃ acc more, rest = acc ++ more ∧ IsAccountField acc)

/-- The message of a signing command of the wallet kind, complete. -/
def walletAnswer (curve : UInt8) (path msg : Bytes) : Answer :=
  withKeyName 10 curve path <|
    match msg with
    | [] => .refused 0x6984
    | b :: rest =>
      if b = 0x03 then if rest.length < 32 then .refused 0x6984 else .asked
      else if b = 0x05 then .asked
      else if b ∈ [0x01, 0x02, 0x04, 0x11, 0x12, 0x13] then .refused 0x6986
      else .refused 0x6984

/-- A block whose fitness is the version byte of Tenderbake with one to four bytes after it. -/
def HasShortFitness (m : Bytes) : Prop :=
  (m[0]? = some 0x01 ∨ m[0]? = some 0x11) ∧ 87 ≤ m.length ∧ 5 ≤ u32At m 83 ∧ u32At m 83 < 9 ∧
    87 + u32At m 83 ≤ m.length ∧ m[91]? = some 2

instance (m : Bytes) : Decidable (HasShortFitness m) := by unfold HasShortFitness; infer_instance

/-- A consensus message, signed with the authorized key. -/
def consensusAnswer (mark : Option Item) (msg : Bytes) : Answer :=
  match mark with
  | none => .refused 0x6400
  | some mark =>
    if HasShortFitness msg then .stops
    else
      match consensusItem msg with
      | none => .refused 0x6984
      | some it => if it.level < 2 ^ 31 ∧ Item.lt mark it then .signed msg else .refused 0x6984

/-- Operations, signed with the authorized key: `b` is what follows the magic byte. -/
def bakerOperationAnswer (b : Bytes) : Answer :=
  if b.length < 32 then .refused 0x6984
  else
    match b.drop 32 with
    | [] => .refused 0x6984
    | tag :: body =>
      if tag = 0x6B then .askedIf (BeginsReveal body)
      else if tag = 0x6E then .askedIf (BeginsDelegation body)
      else .declined

/-- The message of a signing command of the baking kind, complete. The key is the authorized one, by the byte of its curve
and its path as sent in commands. -/
def bakerAnswer (key : Option (UInt8 × Bytes)) (mark : Option Item) (curve : UInt8) (path msg : Bytes) : Answer :=
  withKeyName 10 curve path <|
    match key with
    | none => .refused 0x6985
    | some key =>
      if key ≠ (curve, path) then .refused 0x6984
      else if isConsensusMagic msg then consensusAnswer mark msg
      else
        match msg with
        | [] => .refused 0x6984
        | b :: rest =>
          if b = 0x03 then bakerOperationAnswer rest
          else if b = 0x04 ∨ b = 0x05 then .refused 0x6986
          else .refused 0x6984

/-- A packet of a signing command. -/
def packetAnswer (key : Option (UInt8 × Bytes)) (mark : Option Item) (sess : Option (Session Accessor))
    (k : Packet Accessor) : Answer :=
  match role k.p1 with
  | none => .refused 0x6B00
  | some .opening => .served
  | some r =>
    match sess with
    | none => .refused 0x6400
    | some s =>
      if s.family ≠ k.family then .refused 0x9001
      else if uploadCapacity < 1 + s.first.length + s.rest.length + k.payload.length then .refused 0x6984
      else if r = .middle then .served
      else
        if k.family = .baking then bakerAnswer key mark s.p2 s.first (s.rest ++ k.payload)
        else walletAnswer s.p2 s.first (s.rest ++ k.payload)

/-- Setup: chain id and two levels of 4 bytes each, and the path. -/
def setupAnswer (curve : UInt8) (data : Bytes) : Answer :=
  if 3 < curve.toNat then .refused 0x6B00
  else
    match data.drop 12 with
    | [] => .refused 0x6700
    | n :: rest =>
      if rest.length < 4 * n.toNat then .refused 0x6700
      else if 1 ≤ n.toNat ∧ n.toNat ≤ 10 then .asked
      else .refused 0x6984

/-- HMAC: the path and a message. -/
def hmacAnswer (curve : UInt8) (data : Bytes) : Answer :=
  if 3 < curve.toNat then .refused 0x6B00
  else
    match data with
    | [] => .refused 0x6700
    | n :: rest =>
      if rest.length < 4 * n.toNat then .refused 0x6700
      else if 1 ≤ n.toNat ∧ n.toNat ≤ 10 then .served
      else .refused 0x6984

/-- How a request with this header and this data is answered. -/
def answer (b : Build) (key : Option (UInt8 × Bytes)) (mark : Option Item) (sess : Option (Session Accessor))
    (ins p1 p2 : UInt8) (data : Bytes) : Answer :=
  let packet (f : Accessor) := packetAnswer key mark sess ⟨f, p1, p2, data⟩
  let needsKey (ok : Answer) := if key = none then .refused 0x6985 else ok
  let confirmed (ok : Answer) := if p1 = 0 then .refused 0x6985 else ok
  -- both builds
  if ins ∈ [0x00, 0x09, 0x10] then .served
  else if ins = 0x02 then withKeyName 6 p2 data .served
  else if ins = 0x03 then withKeyName 6 p2 data .asked
  else if ins = 0x11 then withKeyName 6 p2 data (if p1 = 0 then .served else .asked)
  else if ins = 0x12 then packet .sign
  else if b = .wallet then
    if ins ∈ [0x04, 0x05, 0x0F] then packet .sign else .refused 0x6986
  -- the baking app
  else if ins ∈ [0x04, 0x0F, 0xAF] then packet .baking
  else if ins = 0x06 then if data.length < 4 then .refused 0x6700 else .served
  else if ins ∈ [0x08, 0x0B] then .served
  else if ins ∈ [0x01, 0xA1] then confirmed (withKeyName 10 p2 data .asked)
  else if ins ∈ [0x0C, 0xAC] then confirmed (needsKey .asked)
  else if ins ∈ [0x07, 0xA7, 0x0D, 0xAD] then needsKey (if p1 = 0 then .served else .asked)
  else if ins = 0x0A then setupAnswer p2 data
  else if ins = 0x0E then hmacAnswer p2 data
  else .refused 0x6986

end Spec
