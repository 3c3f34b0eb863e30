import Verif.Props.Zui
/-
What a reader of a review expects of the two buttons: a position that goes one screen forward or one screen back.
-/
namespace Spec
open Tezos (Button)

/-- Where the reader of a review is: at one of its screens, counted from zero, or through with it. -/
inductive Place where
  | at (p : Nat)
  | approved
  | rejected
  deriving DecidableEq, Repr

/-- One press, in a review of `n` screens that are followed by the approval and the rejection: right goes forward and stays
at the rejection, left goes back and stays at the first screen, and both buttons choose what is displayed. Where there is
nothing to choose, both buttons do nothing, or, if `jump` is set, go to the approval. -/
def Place.press (n : Nat) (jump : Bool) : Place → Button → Place
  | .at p, .right => .at (min (p + 1) (n + 1))
  | .at p, .left => .at (p - 1)
  | .at p, .both => if p = n then .approved else if p = n + 1 then .rejected else .at (if jump then n else p)
  | .approved, _ => .approved
  | .rejected, _ => .rejected

/-- Where the presses `bs` lead from the first screen. -/
def place (n : Nat) (jump : Bool) (bs : List Button) : Place := bs.foldl (Place.press n jump) (.at 0)

end Spec
