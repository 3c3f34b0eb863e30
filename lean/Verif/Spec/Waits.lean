/-
A host that waits for its answers: after a command it sends nothing until the device answers or is started again. Only
what passes between host and device is looked at.
-/
namespace Spec

/-- Who acts: the host sends a command, the app is started, the user presses a button. -/
inductive Act where
  | command | start | user
  deriving DecidableEq, Repr

/-- Something happens at the device, and the device answers to the host or does not. -/
structure Beat where
  act : Act
  answered : Bool
  deriving DecidableEq, Repr

/-- Whether the host is still owed an answer afterwards. -/
def Beat.owed (owed : Bool) (b : Beat) : Bool :=
  match b.act with
  | .start => false
  | .command => !b.answered
  | .user => owed && !b.answered

/-- The host sends commands only when it is not owed an answer. -/
def Waits (owed : Bool) : List Beat → Prop
  | [] => True
  | b :: bs => (b.act = .command → owed = false) ∧ Waits (b.owed owed) bs

instance decWaits (owed : Bool) (bs : List Beat) : Decidable (Waits owed bs) :=
  match bs with
  | [] => inferInstanceAs (Decidable True)
  | b :: bs => have := decWaits (b.owed owed) bs; inferInstanceAs (Decidable (_ ∧ _))

end Spec
