import Verif.Bytes
/-
Specification of displayed numbers and of paging.
-/
namespace Spec
open Tezos (Bytes)

/-- Reading decimal text: the number it denotes. -/
def textValue (t : Bytes) : Nat := t.foldl (fun a c => a * 10 + (c.toNat - 48)) 0

/-- A character is a decimal digit. -/
def isDigit (c : UInt8) : Prop := 48 ≤ c.toNat ∧ c.toNat ≤ 57

/-- `text` is the number `n / 10^d` written with exactly `d` decimals and no superfluous leading zero. -/
def IsFixedPoint (d : Nat) (text : Bytes) (n : Nat) : Prop :=
  ∃ int frac : Bytes, text = int ++ 46 :: frac ∧ frac.length = d ∧ (∀ c ∈ int, isDigit c) ∧
    (∀ c ∈ frac, isDigit c) ∧ int ≠ [] ∧ (∀ cs, int = 48 :: cs → cs = []) ∧
    textValue int * 10 ^ d + textValue frac = n

/-- A message cut into pages of `m` characters: consecutive pieces, all full except possibly the last, which
is not empty unless it is the only one. -/
structure IsPaging (m : Nat) (msg : Bytes) (pages : List Bytes) : Prop where
  whole : pages.flatten = msg
  nonempty : pages ≠ []
  full : ∀ (k : Nat) (p : Bytes), pages[k]? = some p → k + 1 < pages.length → p.length = m
  last : ∀ p ∈ pages, p.length ≤ m ∧ (p = [] → msg = [])

end Spec
