import Verif.Spec.Forging
import Verif.Samples
/-
Specification of the description of operations in the samples of the integration tests: which descriptions in JSON are
right for an operation of the protocol, as far as the tests look at them. `N t n` says that the text `t` is right for
the number `n`.
-/
namespace Spec
open Tezos (Bytes ascii Json JsonMap Sample)

/-- The member `key` of `j` is a text with property `P`. -/
def HasText (j : JsonMap) (key : String) (P : Bytes → Prop) : Prop :=
  ∃ t, List.lookup (ascii key) j = some (.str t) ∧ P t

/-- The member `key` of `j` is an integer of 64 bits that agrees with `n` in the low `bits` bits. -/
def HasLowBits (bits : Nat) (j : JsonMap) (key : String) (n : Nat) : Prop :=
  ∃ k : Int, List.lookup (ascii key) j = some (.int k) ∧ -(2 ^ 63) ≤ k ∧ k < 2 ^ 63 ∧ (2 ^ bits : Int) ∣ k - n

/-- A hexadecimal text, with letters of either case. -/
def IsHexText (b t : Bytes) : Prop := readHex (t.map fun c => if 65 ≤ c ∧ c ≤ 70 then c + 32 else c) = some b

/-- A text of decimal digits for a number that the device can read. -/
def IsPlainNumber (t : Bytes) (n : Nat) : Prop := n < 2 ^ 28 ∧ t ≠ [] ∧ (∀ c ∈ t, isDigit c) ∧ textValue t = n

/-- The fields of a manager. -/
def ManagerDescribed (N : Bytes → Nat → Prop) (h : Hashes) (m : ManagerFields) (j : JsonMap) : Prop :=
  HasText j "source" (IsAddress h m.source) ∧ HasText j "counter" (N · m.counter) ∧ HasText j "fee" (N · m.fee) ∧
    HasText j "gas_limit" (N · m.gasLimit) ∧ HasText j "storage_limit" (N · m.storageLimit)

/-- An optional account: there is no member if there is no account. -/
def DelegateDescribed (h : Hashes) (d : Option Account) (j : JsonMap) : Prop :=
  match d with
  | none => List.lookup (ascii "delegate") j = none
  | some a => HasText j "delegate" (IsAddress h a)

/-- The text of a destination. -/
def IsDestination (h : Hashes) : Destination → Bytes → Prop
  | .account a, t => IsAddress h a t
  | .contract c, t => IsBase58Check h [2, 90, 121] c t

/-- The name of an entrypoint. -/
def Entry.name : Entry → Bytes
  | .default => ascii "default"
  | .root => ascii "root"
  | .do_ => ascii "do"
  | .setDelegate => ascii "set_delegate"
  | .removeDelegate => ascii "remove_delegate"
  | .named n => n

/-- A call of the default entrypoint with the unit, which is not encoded. -/
def unitCall : JsonMap :=
  [(ascii "entrypoint", .str (ascii "default")), (ascii "value", .obj [(ascii "prim", .str (ascii "Unit"))])]

/-- The call of a contract: only the entrypoint is looked at. -/
def CallDescribed (c : Option Call) (j : JsonMap) : Prop :=
  match c with
  | none => List.lookup (ascii "parameters") j = none ∨ List.lookup (ascii "parameters") j = some (.obj unitCall)
  | some c => ∃ p, List.lookup (ascii "parameters") j = some (.obj p) ∧ HasText p "entrypoint" (· = c.entry.name)

/-- The kind of an operation, by its name. -/
def Operation.kind : Operation → String
  | .endorsement _ => "endorsement"
  | .seedNonceRevelation _ _ => "seed_nonce_revelation"
  | .doubleEndorsement _ _ _ => "double_endorsement_evidence"
  | .doubleBaking _ _ => "double_baking_evidence"
  | .activateAccount _ _ => "activate_account"
  | .proposals _ _ _ => "proposals"
  | .ballot _ _ _ _ => "ballot"
  | .endorsementWithSlot _ _ => "endorsement_with_slot"
  | .failingNoop _ => "failing_noop"
  | .reveal _ _ _ => "reveal"
  | .transfer _ _ _ _ => "transaction"
  | .origination _ _ _ _ _ => "origination"
  | .delegation _ _ => "delegation"

/-- The fields of an operation. -/
def FieldsDescribed (N : Bytes → Nat → Prop) (h : Hashes) (j : JsonMap) : Operation → Prop
  | .endorsement l => HasLowBits 32 j "level" l.toNat
  | .seedNonceRevelation l n => HasLowBits 32 j "level" l.toNat ∧ HasText j "nonce" (IsHexText n)
  | .doubleEndorsement _ _ _ => True
  | .doubleBaking _ _ => True
  | .activateAccount a s => HasText j "pkh" (IsAddress h ⟨.ed25519, a⟩) ∧ HasText j "secret" (IsHexText s)
  | .proposals s p ps =>
    HasText j "source" (IsAddress h s) ∧ HasLowBits 32 j "period" p.toNat ∧
      ∃ ts more, List.lookup (ascii "proposals") j = some (.arr (ts.map .str ++ more)) ∧
        List.Forall₂ (IsBase58Check h [2, 170]) ps ts
  | .ballot s p b v =>
    HasText j "source" (IsAddress h s) ∧ HasLowBits 32 j "period" p.toNat ∧
      HasText j "ballot" (· = ascii (match v with | .yay => "yay" | .nay => "nay" | .pass => "pass")) ∧
      HasText j "proposal" (IsBase58Check h [2, 170] b)
  | .endorsementWithSlot e s =>
    HasText j "branch" (IsBase58Check h [1, 52] e.branch) ∧ HasLowBits 16 j "slot" s.toNat ∧
      HasLowBits 32 j "level" e.level.toNat
  | .failingNoop _ => True
  | .reveal m k key => ManagerDescribed N h m j ∧ HasText j "public_key" (IsBase58Check h k.keyPrefix key)
  | .transfer m a d c =>
    ManagerDescribed N h m j ∧ HasText j "amount" (N · a) ∧ HasText j "destination" (IsDestination h d) ∧
      CallDescribed c j
  | .origination m b d _ _ => ManagerDescribed N h m j ∧ HasText j "balance" (N · b) ∧ DelegateDescribed h d j
  | .delegation m d => ManagerDescribed N h m j ∧ DelegateDescribed h d j

/-- The description is right for the operation, as far as the tests look at it. -/
def Described (N : Bytes → Nat → Prop) (h : Hashes) (o : Operation) (j : JsonMap) : Prop :=
  HasText j "kind" (· = ascii o.kind) ∧ FieldsDescribed N h j o

/-- The members that are numbers are written as decimal digits. -/
def PlainNumbers (j : JsonMap) : Prop :=
  ∀ key ∈ ["amount", "balance", "counter", "fee", "gas_limit", "storage_limit"], ∀ t,
    List.lookup (ascii key) j = some (.str t) → t ≠ [] ∧ ∀ c ∈ t, isDigit c

/-- The expectations on the review of a batch are right: every item that is expected is there, its title starts as
expected, and the text expected is a text for what this item must say. -/
def RightPages (h : Hashes) (branch : Bytes) (os : List Operation) (ui : List Tezos.ExpectedPage) : Prop :=
  ∀ p ∈ ui, ∃ e, (batchReview branch os [])[p.idx]? = some e ∧
    ∀ text, p.message.head? = some text → p.title <+: ascii e.1 ∧ e.2.Text h text

/-- What the tests see of an operation: arguments of calls, contracts, signatures, denunciations and the data of failing
operations are blanked out; entrypoints are known by their names. -/
def Operation.seen : Operation → Operation
  | .doubleEndorsement _ _ _ => .doubleEndorsement ⟨[], 0, []⟩ ⟨[], 0, []⟩ 0
  | .doubleBaking _ _ =>
    .doubleBaking ⟨0, 0, [], 0, 0, [], [], [], 0, [], none, false, []⟩ ⟨0, 0, [], 0, 0, [], [], [], 0, [], none, false, []⟩
  | .endorsementWithSlot e s => .endorsementWithSlot { e with signature := [] } s
  | .failingNoop _ => .failingNoop []
  | .transfer m a d c => .transfer m a d (c.map fun c => ⟨.named c.entry.name, []⟩)
  | .origination m b d _ _ => .origination m b d [] []
  | o => o

/-- Two operations look the same to the tests, except that of two lists of proposals one may go on, and of two transfers
one may call the default entrypoint and the other nothing. -/
def LooksLike (o o' : Operation) : Prop :=
  o.seen = o'.seen ∨
    (∃ s p ps ps', o = .proposals s p ps ∧ o' = .proposals s p ps' ∧ (ps <+: ps' ∨ ps' <+: ps)) ∨
    ∃ m a d c, c.entry.name = ascii "default" ∧
      (o = .transfer m a d none ∧ o' = .transfer m a d (some c) ∨ o = .transfer m a d (some c) ∧ o' = .transfer m a d none)

end Spec
