import Verif.Menu
/-
The idle menu as a user knows it: six entries, of which one switches expert mode and one leaves the app.
-/
namespace Spec
open Tezos (MenuKey)

/-- The two lines of each entry. -/
def menuLines (license version : String) (expert : Bool) : List (String × String) :=
  [("Tezos", "DO NOT USE"), ("Expert mode:", if expert then "enabled" else "disabled"), ("DO NOT USE", version),
    ("Developed by:", "Zondax.ch"), (license, "Apache 2.0"), ("Quit", "")]

/-- The entry on the screen and the mode. -/
structure MenuState where
  pos : Nat
  expert : Bool
  deriving DecidableEq, Repr

/-- A button; `none` if the app is left. -/
def MenuState.press (s : MenuState) : MenuKey → Option MenuState
  | .left => some { s with pos := s.pos - 1 }
  | .right => some { s with pos := min (s.pos + 1) 5 }
  | .both => if s.pos = 1 then some { s with expert := !s.expert } else if s.pos = 5 then none else some s

/-- The entry reached from entry `p` by the buttons, as long as the menu is not left. -/
def menuWalk (p : Nat) : List MenuKey → Nat
  | [] => p
  | .left :: ks => menuWalk (p - 1) ks
  | .right :: ks => menuWalk (if p < 5 then p + 1 else p) ks
  | .both :: ks => menuWalk p ks

end Spec
