import Verif.Props.Menu
/-
The idle menu compared with the screenshots of zemu/snapshots/{s,bs,x,sp,bsp}-mainmenu: the buttons of
zemu/tests/standard.test.ts 40 and zemu/tests/baking.test.ts 52, `[1, 0, 0, 4, -5]`, where a positive number is so many times
right, a negative one left, and 0 both buttons. The screenshots in these directories differ in layout only.
-/
namespace Tezos.Conformance

/-- zemu/tests/standard.test.ts 40. -/
def menuKeys : List MenuKey := [.right, .both, .both, .right, .right, .right, .right, .left, .left, .left, .left, .left]

/-- zemu/snapshots/s-mainmenu and the others, screen by screen. -/
def menuShots : List (String × String) :=
  [("Tezos", "DO NOT USE"), ("Expert mode:", "disabled"), ("Expert mode:", "enabled"), ("Expert mode:", "disabled"),
    ("DO NOT USE", "v3.1.2"), ("Developed by:", "Zondax.ch"), ("License:", "Apache 2.0"), ("Quit", ""),
    ("License:", "Apache 2.0"), ("Developed by:", "Zondax.ch"), ("DO NOT USE", "v3.1.2"), ("Expert mode:", "disabled"),
    ("Tezos", "DO NOT USE")]

/-- rust/app/Makefile.version. -/
def menuConfig : Config := ⟨.wallet, 3, 1, 2, [], 0⟩

/-- Without the space at the end of "License: ", which the screenshots do not show. -/
def trimEnd (b : Bytes) : Bytes := (b.reverse.dropWhile (· = 32)).reverse

/-- The lines on the screen. -/
def menuLook (e : Option MenuEntry) : Option (Bytes × Bytes) := e.map fun e => (trimEnd e.line1, e.line2)

/-- The screens of the two-line display, from the one at the start on. -/
def looksS : List MenuKey → MenuRes MenuS → List (Option (Bytes × Bytes))
  | [], r => [menuLook (r.entry (MenuS.shown menuConfig))]
  | k :: ks, r => menuLook (r.entry (MenuS.shown menuConfig)) ::
    looksS ks (match r with | .on m => m.press menuConfig k | r => r)

/-- The screens of the larger display. -/
def looksX : List MenuKey → MenuRes MenuX → List (Option (Bytes × Bytes))
  | [], r => [menuLook (r.entry (MenuX.shown menuConfig))]
  | k :: ks, r => menuLook (r.entry (MenuX.shown menuConfig)) ::
    looksX ks (match r with | .on m => m.press menuConfig k | r => r)

set_option maxRecDepth 100000 in
example : looksS menuKeys MenuS.start = menuShots.map (fun l => some (ascii l.1, ascii l.2)) ∧
    looksX menuKeys MenuX.start = menuShots.map (fun l => some (ascii l.1, ascii l.2)) := by
  decide +kernel

end Tezos.Conformance
