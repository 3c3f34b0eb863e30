import Verif.Spec.Consensus
/-
What the software of a baker expects that asks for signatures of consensus messages one after the other.
-/
namespace Spec

/-- Which of these items are signed, if they are asked for in this order and the last one signed before was `last`: those
above everything signed so far, of a level below `2 ^ 31`. -/
def verdicts : Item → List Item → List Bool
  | _, [] => []
  | last, it :: its =>
    if it.level < 2 ^ 31 ∧ Item.lt last it then true :: verdicts it its else false :: verdicts last its

/-- The answers of a device that follows some other rule: `rule last it` tells whether it signs `it` after `last`. -/
def verdictsBy (rule : Item → Item → Bool) : Item → List Item → List Bool
  | _, [] => []
  | last, it :: its => if rule last it then true :: verdictsBy rule it its else false :: verdictsBy rule last its

end Spec
