import Verif.Spec.Zarith
/-
Specification of the binary encoding of the operations the app claims to understand (Tezos protocols of
the 010-012 era), written from the protocol's point of view: an operation is what its author means, numbers
are numbers.
-/
namespace Spec
open Tezos (Bytes be16 be32 be64)

inductive KeyKind where
  | ed25519 | secp256k1 | p256
  deriving DecidableEq, Repr

def KeyKind.tag : KeyKind → UInt8
  | .ed25519 => 0
  | .secp256k1 => 1
  | .p256 => 2

/-- Length of a public key on the wire. -/
def KeyKind.keyLength : KeyKind → Nat
  | .ed25519 => 32
  | .secp256k1 => 33
  | .p256 => 33

/-- An implicit account: kind of key and 20-byte hash. -/
structure Account where
  kind : KeyKind
  hash : Bytes
  deriving DecidableEq, Repr

def Account.encode (a : Account) : Bytes := a.kind.tag :: a.hash
def Account.Valid (a : Account) : Prop := a.hash.length = 20

inductive Destination where
  | account (a : Account)
  | contract (hash : Bytes)
  deriving DecidableEq, Repr

/-- Contracts are padded with one zero byte to the width of an account. -/
def Destination.encode : Destination → Bytes
  | .account a => 0 :: a.encode
  | .contract h => 1 :: (h ++ [0])

def Destination.Valid : Destination → Prop
  | .account a => a.Valid
  | .contract h => h.length = 20

inductive Entry where
  | default | root | do_ | setDelegate | removeDelegate | named (name : Bytes)
  deriving DecidableEq, Repr

def Entry.encode : Entry → Bytes
  | .default => [0]
  | .root => [1]
  | .do_ => [2]
  | .setDelegate => [3]
  | .removeDelegate => [4]
  | .named n => 0xFF :: UInt8.ofNat n.length :: n

def Entry.Valid : Entry → Prop
  | .named n => n.length < 256
  | _ => True

/-- A byte string preceded by its length on 4 bytes. -/
def withLength (b : Bytes) : Bytes := be32 (UInt32.ofNat b.length) ++ b

/-- A call: entrypoint and Michelson argument. -/
structure Call where
  entry : Entry
  argument : Bytes
  deriving DecidableEq, Repr

def Call.encode (c : Call) : Bytes := c.entry.encode ++ withLength c.argument
def Call.Valid (c : Call) : Prop := c.entry.Valid ∧ c.argument.length < 2 ^ 32

/-- Optional fields: 0xFF and the field, or 0x00. -/
def encodeOption {α : Type} (enc : α → Bytes) : Option α → Bytes
  | none => [0]
  | some a => 0xFF :: enc a

def validOption {α : Type} (v : α → Prop) : Option α → Prop
  | none => True
  | some a => v a

/-- The fields common to the operations of an account's manager. -/
structure ManagerFields where
  source : Account
  fee : Nat
  counter : Nat
  gasLimit : Nat
  storageLimit : Nat
  deriving DecidableEq, Repr

def ManagerFields.encode (m : ManagerFields) : Bytes :=
  m.source.encode ++ zarithEncode m.fee ++ zarithEncode m.counter ++ zarithEncode m.gasLimit ++
    zarithEncode m.storageLimit

/-- A signed endorsement embedded in another operation. -/
structure InnerEndorsement where
  branch : Bytes
  level : UInt32
  signature : Bytes
  deriving DecidableEq, Repr

def InnerEndorsement.encode (e : InnerEndorsement) : Bytes :=
  withLength (e.branch ++ [0] ++ be32 e.level ++ e.signature)
def InnerEndorsement.Valid (e : InnerEndorsement) : Prop :=
  e.branch.length = 32 ∧ e.signature.length + 37 < 2 ^ 32

inductive Choice where
  | yay | nay | pass
  deriving DecidableEq, Repr

def Choice.byte : Choice → UInt8
  | .yay => 0
  | .nay => 1
  | .pass => 2

/-- A full block header embedded in a denunciation; `fitness` is the list of its byte strings. -/
structure Header where
  level : UInt32
  proto : UInt8
  predecessor : Bytes
  timestamp : UInt64
  validationPass : UInt8
  operationsHash : Bytes
  fitness : List Bytes
  context : Bytes
  priority : UInt16
  powNonce : Bytes
  seedNonceHash : Option Bytes
  escapeVote : Bool
  signature : Bytes
  deriving DecidableEq, Repr

def Header.encode (h : Header) : Bytes :=
  be32 h.level ++ [h.proto] ++ h.predecessor ++ be64 h.timestamp ++ [h.validationPass] ++
    h.operationsHash ++ withLength (h.fitness.flatMap withLength) ++ h.context ++ be16 h.priority ++
    h.powNonce ++ encodeOption id h.seedNonceHash ++ [if h.escapeVote then 0xFF else 0] ++ h.signature

def Header.Valid (h : Header) : Prop :=
  h.predecessor.length = 32 ∧ h.operationsHash.length = 32 ∧ h.context.length = 32 ∧
  h.powNonce.length = 8 ∧ validOption (fun s => s.length = 32) h.seedNonceHash ∧
  h.signature.length = 64 ∧ (h.fitness.flatMap withLength).length < 2 ^ 32 ∧
  ∀ f ∈ h.fitness, f.length < 2 ^ 32

inductive Operation where
  | endorsement (level : UInt32)
  | seedNonceRevelation (level : UInt32) (nonce : Bytes)
  | doubleEndorsement (e1 e2 : InnerEndorsement) (slot : UInt16)
  | doubleBaking (h1 h2 : Header)
  | activateAccount (hash secret : Bytes)
  | proposals (source : Account) (period : UInt32) (proposals : List Bytes)
  | ballot (source : Account) (period : UInt32) (proposal : Bytes) (vote : Choice)
  | endorsementWithSlot (e : InnerEndorsement) (slot : UInt16)
  | failingNoop (data : Bytes)
  | reveal (m : ManagerFields) (kind : KeyKind) (key : Bytes)
  | transfer (m : ManagerFields) (amount : Nat) (dest : Destination) (call : Option Call)
  | origination (m : ManagerFields) (balance : Nat) (delegate : Option Account) (code storage : Bytes)
  | delegation (m : ManagerFields) (delegate : Option Account)
  deriving DecidableEq, Repr

def Operation.encode : Operation → Bytes
  | .endorsement l => 0x00 :: be32 l
  | .seedNonceRevelation l n => 0x01 :: (be32 l ++ n)
  | .doubleEndorsement e1 e2 s => 0x02 :: (e1.encode ++ e2.encode ++ be16 s)
  | .doubleBaking h1 h2 => 0x03 :: (h1.encode ++ h2.encode)
  | .activateAccount h s => 0x04 :: (h ++ s)
  | .proposals s p ps => 0x05 :: (s.encode ++ be32 p ++ withLength ps.flatten)
  | .ballot s p h v => 0x06 :: (s.encode ++ be32 p ++ h ++ [v.byte])
  | .endorsementWithSlot e s => 0x0A :: (e.encode ++ be16 s)
  | .failingNoop d => 0x11 :: withLength d
  | .reveal m k key => 0x6B :: (m.encode ++ [k.tag] ++ key)
  | .transfer m a d c => 0x6C :: (m.encode ++ zarithEncode a ++ d.encode ++ encodeOption Call.encode c)
  | .origination m b d code storage =>
    0x6D :: (m.encode ++ zarithEncode b ++ encodeOption Account.encode d ++ withLength code ++
      withLength storage)
  | .delegation m d => 0x6E :: (m.encode ++ encodeOption Account.encode d)

/-- The fields have the sizes the protocol gives them. -/
def Operation.Valid : Operation → Prop
  | .endorsement _ => True
  | .seedNonceRevelation _ n => n.length = 32
  | .doubleEndorsement e1 e2 _ => e1.Valid ∧ e2.Valid
  | .doubleBaking h1 h2 => h1.Valid ∧ h2.Valid
  | .activateAccount h s => h.length = 20 ∧ s.length = 20
  | .proposals s _ ps => s.Valid ∧ (∀ p ∈ ps, p.length = 32) ∧ 32 * ps.length < 2 ^ 32
  | .ballot s _ h _ => s.Valid ∧ h.length = 32
  | .endorsementWithSlot e _ => e.Valid
  | .failingNoop d => d.length < 2 ^ 32
  | .reveal m k key => m.source.Valid ∧ key.length = k.keyLength
  | .transfer m _ d c => m.source.Valid ∧ d.Valid ∧ validOption Call.Valid c
  | .origination m _ d code storage =>
    m.source.Valid ∧ validOption Account.Valid d ∧ code.length < 2 ^ 32 ∧ storage.length < 2 ^ 32
  | .delegation m d => m.source.Valid ∧ validOption Account.Valid d

end Spec
