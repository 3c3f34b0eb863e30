import Verif.Spec.Format
import Verif.Spec.Operations
import Verif.Format
import Verif.Bakers
/-
Specification of what the review of a message must say, written from the user's point of view: for every operation
the list of its items in order, each with its title and the meaning of its text. Texts are specified by how they are
read (the number they denote, the bytes they stand for), not by how they are produced.
-/
namespace Spec
open Tezos (Bytes ascii be32 knownBakers)

/-- What the display shows of a text: the characters before the first NUL. -/
def visible (t : Bytes) : Bytes := t.takeWhile (· != 0)

/-- How it shows them: a dot for each that is not printable ASCII. -/
def dotted (t : Bytes) : Bytes := t.map fun c => if 32 ≤ c ∧ c ≤ 127 then c else 46

/-- Decimal text of a number, without superfluous leading zeros. -/
def IsDecimal (text : Bytes) (n : Nat) : Prop :=
  text ≠ [] ∧ (∀ c ∈ text, isDigit c) ∧ (∀ cs, text = 48 :: cs → cs = []) ∧ textValue text = n

/-- Decimal text of a 32-bit number in two's complement: a minus sign when it is negative. -/
def IsSigned (text : Bytes) (x : UInt32) : Prop :=
  (x.toNat < 2 ^ 31 ∧ IsDecimal text x.toNat) ∨
  (2 ^ 31 ≤ x.toNat ∧ ∃ t, text = 45 :: t ∧ IsDecimal t (2 ^ 32 - x.toNat))

/-- The value of a lower case hexadecimal digit. -/
def hexDigitValue (c : UInt8) : Option Nat :=
  if 48 ≤ c.toNat ∧ c.toNat ≤ 57 then some (c.toNat - 48)
  else if 97 ≤ c.toNat ∧ c.toNat ≤ 102 then some (c.toNat - 97 + 10) else none

/-- Reading hexadecimal text. -/
def readHex : Bytes → Option Bytes
  | [] => some []
  | [_] => none
  | a :: b :: r => do
    let x ← hexDigitValue a
    let y ← hexDigitValue b
    let l ← readHex r
    return UInt8.ofNat (16 * x + y) :: l

/-- The letters of base58, by value. -/
def base58Letters : String := "123456789ABCDEFGHJKLMNPQRSTUVWXYZabcdefghijkmnopqrstuvwxyz"

/-- The number written by digits in base `b`, most significant first. -/
def digitsValue (b : Nat) (ds : List Nat) : Nat := ds.foldl (fun a d => a * b + d) 0

/-- `text` is the base58 form of `data`: its letters are digits that write the same number, and it starts with as many
zero digits as `data` starts with zero bytes. -/
def IsBase58 (text data : Bytes) : Prop :=
  ∃ ds : List Nat, text.map some = ds.map (fun d => (ascii base58Letters)[d]?) ∧
    digitsValue 58 ds = digitsValue 256 (data.map UInt8.toNat) ∧
    (ds.takeWhile (· == 0)).length = (data.takeWhile (· == 0)).length

/-- The hash functions the texts depend on; `none` when the system fails to compute one. -/
structure Hashes where
  sha256 : Bytes → Option Bytes
  blake256 : Bytes → Option Bytes

/-- Base58Check text: prefix, payload, and the first four bytes of the double SHA-256 of both. -/
def IsBase58Check (h : Hashes) (pfx payload text : Bytes) : Prop :=
  ∃ d1 d2, h.sha256 (pfx ++ payload) = some d1 ∧ h.sha256 d1 = some d2 ∧
    IsBase58 text (pfx ++ payload ++ d2.take 4)

/-- The prefixes of the addresses: tz1, tz2, tz3. -/
def KeyKind.addressPrefix : KeyKind → Bytes
  | .ed25519 => [6, 161, 159]
  | .secp256k1 => [6, 161, 161]
  | .p256 => [6, 161, 164]

/-- The prefixes of the public keys: edpk, sppk, p2pk. -/
def KeyKind.keyPrefix : KeyKind → Bytes
  | .ed25519 => [13, 15, 37, 217]
  | .secp256k1 => [3, 254, 226, 86]
  | .p256 => [3, 178, 139, 127]

/-- Meanings of texts. -/
inductive Shown where
  /-- these very words -/
  | words (s : String)
  | number (n : Nat)
  | signed (x : UInt32)
  /-- millionths of a tez, shown in tez with six decimals -/
  | tez (n : Nat)
  | account (a : Account)
  | contract (hash : Bytes)
  /-- an account, by its registered name if it has one -/
  | baker (a : Account)
  | key (kind : KeyKind) (key : Bytes)
  | block (hash : Bytes)
  | proposal (hash : Bytes)
  | chain (id : UInt32)
  /-- a block level -/
  | level (l : UInt32)
  /-- hexadecimal of the SHA-256 of data -/
  | digestOf (data : Bytes)
  | hex (data : Bytes)
  /-- base58 of the BLAKE2b-256 of data, with a checksum but no prefix -/
  | opaque (data : Bytes)
  deriving DecidableEq, Repr

/-- The text of an account. -/
def IsAddress (h : Hashes) (a : Account) (text : Bytes) : Prop := IsBase58Check h a.kind.addressPrefix a.hash text

/-- The visible text says what it must. -/
def Shown.Text (h : Hashes) : Shown → Bytes → Prop
  | .words s, t => t = ascii s
  | .number n, t => IsDecimal t n
  | .signed x, t => IsSigned t x
  | .tez n, t => IsFixedPoint 6 t n
  | .account a, t => IsAddress h a t
  | .contract hash, t => IsBase58Check h [2, 90, 121] hash t
  | .baker a, t =>
    (∃ b ∈ knownBakers, b.pfx = a.kind.addressPrefix ∧ b.hash = a.hash ∧ t = b.name) ∨
    ((∀ b ∈ knownBakers, ¬ (b.pfx = a.kind.addressPrefix ∧ b.hash = a.hash)) ∧ IsAddress h a t)
  | .key k bytes, t => IsBase58Check h k.keyPrefix bytes t
  | .block hash, t => IsBase58Check h [1, 52] hash t
  | .proposal hash, t => IsBase58Check h [2, 170] hash t
  | .chain id, t => IsBase58Check h [87, 82, 0] (be32 id) t
  | .level l, t => IsDecimal t l.toNat
  | .digestOf data, t => ∃ d, h.sha256 data = some d ∧ readHex t = some d
  | .hex data, t => readHex t = some data
  | .opaque data, t => ∃ d, h.blake256 data = some d ∧ IsBase58Check h [] d t

/-- Numbers the device can read: those that need at most four bytes in the message. -/
def Shown.Readable : Shown → Prop
  | .number n => n < 2 ^ 28
  | .tez n => n < 2 ^ 28
  | _ => True

/-- Titles and contents of the items of an operation, in order. -/
def Operation.review : Operation → List (String × Shown)
  | .endorsement l => [("Type", .words "Endorsement"), ("Level", .signed l)]
  | .seedNonceRevelation _ _ => []
  | .doubleEndorsement _ _ _ => []
  | .doubleBaking _ _ => []
  | .activateAccount h s =>
    [("Type", .words "Acct. Activation"), ("Public Key Hash", .account ⟨.ed25519, h⟩), ("Secret", .hex s)]
  | .proposals s p ps =>
    [("Type", .words "Proposals"), ("Source", .account s), ("Period", .signed p)] ++
      ps.zipIdx.map fun x => (s!"Proposal #{x.2 + 1}", .proposal x.1)
  | .ballot s p h v =>
    [("Type", .words "Ballot"), ("Source", .account s), ("Period", .signed p), ("Proposal", .proposal h),
     ("Vote", .words (match v with | .yay => "yay" | .nay => "nay" | .pass => "pass"))]
  | .endorsementWithSlot e s =>
    [("Type", .words "Endorsement"), ("Branch", .block e.branch), ("Slot", .number s.toNat),
     ("Type", .words "Endorsement"), ("Level", .signed e.level)]
  | .failingNoop d => [("Type", .words "Failing Noop"), ("Data Hash", .digestOf d)]
  | .reveal m k key =>
    [("Type", .words "Revelation"), ("Source", .account m.source), ("Public Key", .key k key), ("Fee", .tez m.fee),
     ("Gas Limit", .number m.gasLimit), ("Storage Limit", .number m.storageLimit), ("Counter", .number m.counter)]
  | .transfer m amount dest call =>
    [("Type", .words (if call.isSome then "Contract Execution" else "Transaction")), ("Source", .account m.source),
     match dest with
      | .account a => ("Destination", .account a)
      | .contract h => ("Contract Addr", .contract h),
     ("Amount", .tez amount), ("Fee", .tez m.fee),
     ("Parameters", match call with
      | some c => .digestOf c.argument
      | none => .words "no parameters..."),
     ("Gas Limit", .number m.gasLimit), ("Storage Limit", .number m.storageLimit), ("Counter", .number m.counter)]
  | .origination m balance delegate code storage =>
    [("Type", .words "Origination"), ("Source", .account m.source), ("Balance", .tez balance),
     ("Delegate", match delegate with
      | some a => .account a
      | none => .words "no delegate"),
     ("Fee", .tez m.fee), ("Code", .digestOf code), ("Storage", .digestOf storage),
     ("Gas Limit", .number m.gasLimit), ("Storage Limit", .number m.storageLimit), ("Counter", .number m.counter)]
  | .delegation m delegate =>
    [("Type", .words (if delegate.isSome then "Delegation" else "Delegation Withdrawal")),
     ("Source", .account m.source),
     ("Delegation", match delegate with
      | some a => .baker a
      | none => .words "<REVOKED>"),
     ("Fee", .tez m.fee), ("Gas Limit", .number m.gasLimit), ("Storage Limit", .number m.storageLimit),
     ("Counter", .number m.counter)]

/-- Bytes that do not start with the tag of an operation of the protocol: an operation the app does not know. -/
def IsOpaque (data : Bytes) : Prop :=
  ∀ t r, data = t :: r → t.toNat ∉ [0, 1, 2, 3, 4, 5, 6, 10, 17, 107, 108, 109, 110]

/-- The items of such bytes: nothing if there are none; otherwise a digest of those after the tag. -/
def opaqueReview : Bytes → List (String × Shown)
  | [] => []
  | _ :: data => [("Type", .words "Unknown Operation"), ("Hash", .opaque data)]

/-- The whole review of a batch of operations followed by opaque bytes. -/
def batchReview (branch : Bytes) (os : List Operation) (rest : Bytes) : List (String × Shown) :=
  ("Operation", .block branch) :: (os.flatMap Operation.review ++ opaqueReview rest)

end Spec
