import Verif.Spec.Consensus
/-
Messages as a baker signs them: each is about a higher item than the one before.
-/
namespace Spec
open Tezos (Bytes)

/-- Consensus messages, well-formed, of levels of 31 bits, each about a higher item than the one before; the first is above
`last`. -/
def Ascending (last : Item) : List Bytes → Prop
  | [] => True
  | m :: ms => ∃ it, consensusItem m = some it ∧ it.level < 2 ^ 31 ∧ Item.lt last it ∧ Ascending it ms

end Spec
