import Verif.Spec.Format
/-
Specification of what users hand to the client library: derivation paths written as text.
-/
namespace Spec
open Tezos (Bytes)

/-- `t` is the number `n` written in decimal, possibly with leading zeros. -/
structure IsDigits (t : Bytes) (n : Nat) : Prop where
  nonempty : t ≠ []
  digits : ∀ c ∈ t, isDigit c
  value : textValue t = n

/-- A component of a derivation path (BIP 32): its index below 2^31, and whether it is hardened. -/
structure Component where
  index : Nat
  hardened : Bool
  deriving DecidableEq, Repr

/-- The 32 bits of a component (BIP 32). -/
def Component.bits (c : Component) : UInt32 := UInt32.ofNat (c.index + if c.hardened then 2 ^ 31 else 0)

/-- A component in text: the index in decimal, and an apostrophe if it is hardened. -/
def IsComponentText (t : Bytes) (c : Component) : Prop :=
  ∃ d, IsDigits d c.index ∧ t = d ++ if c.hardened then [0x27] else []

/-- A path in text: `m`, and each component after a slash, as in `m/44'/1729'/0'/0'`. -/
def IsPathText (t : Bytes) (cs : List Component) : Prop :=
  ∃ ps : List (Bytes × Component), (∀ p ∈ ps, IsComponentText p.1 p.2) ∧ cs = ps.map (·.2) ∧
    t = 0x6d :: ps.flatMap fun p => 0x2f :: p.1

end Spec
