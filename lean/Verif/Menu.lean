import Verif.Buffers
import Verif.Device
/-
The idle menu and its expert mode entry.

The engines that move through a menu (`UX_MENU_DISPLAY` on the Nano S) or a flow (`ux_flow_init` on the Nano X and S+)
belong to the operating system and are not in the repository. They are taken to work as follows: left and right move by
one entry and do nothing at the ends; both buttons call the function of the entry, if it has one; a flow runs the
initialization of a step whenever the step is entered; the lines of an entry are read from memory when it is drawn.
-/
namespace Tezos

/-- The functions of menu entries: `rs_h_expert_toggle`, and leaving the app by `os_exit` or `os_sched_exit`. -/
inductive MenuCall where
  | toggle | exit
  deriving DecidableEq, Repr

/-- An entry of the menu as it is drawn. -/
structure MenuEntry where
  line1 : Bytes
  line2 : Bytes
  call : Option MenuCall
  deriving DecidableEq, Repr

/-- rust/app/refactor/coin.h 25 and rust/app/Makefile 143: `APPVERSION_LINE2`, from the numbers of Makefile.version. -/
def versionLine (cfg : Config) : Bytes :=
  ascii "v" ++ decimal cfg.major.toNat ++ ascii "." ++ decimal cfg.minor.toNat ++ ascii "." ++ decimal cfg.patch.toNat

/-- rust/app/refactor/view_s.c 48-61: `menu_main`, with the texts of rust/app/refactor/coin.h 22-25. -/
def menuS (cfg : Config) (b : BufS) : List MenuEntry :=
  [⟨ascii "Tezos", cString b.key, none⟩, ⟨ascii "Expert mode:", cString b.value, some .toggle⟩,
    ⟨ascii "DO NOT USE", versionLine cfg, none⟩, ⟨ascii "Developed by:", ascii "Zondax.ch", none⟩,
    ⟨ascii "License: ", ascii "Apache 2.0", none⟩, ⟨ascii "Quit", [], some .exit⟩]

/-- rust/app/refactor/view_x.c 46-61: `ux_idle_flow`. -/
def menuX (cfg : Config) (b : BufX) : List MenuEntry :=
  [⟨ascii "Tezos", cString b.key, none⟩, ⟨ascii "Expert mode:", cString b.message, some .toggle⟩,
    ⟨ascii "DO NOT USE", versionLine cfg, none⟩, ⟨ascii "Developed by:", ascii "Zondax.ch", none⟩,
    ⟨ascii "License:", ascii "Apache 2.0", none⟩, ⟨ascii "Quit", [], some .exit⟩]

/-- The buttons. -/
inductive MenuKey where
  | left | right | both
  deriving DecidableEq, Repr

/-- How pressing a button ends. -/
inductive MenuRes (α : Type) where
  | on (m : α)
  | exit
  | panic
  deriving DecidableEq, Repr

/-- An entry to the left of entry `i`, if there is one. -/
def menuPrev (i : Nat) : Nat := i - 1

/-- An entry to the right of entry `i` of `n`, if there is one. -/
def menuNext (n i : Nat) : Nat := if i + 1 < n then i + 1 else i

/-! ### The two-line display -/

/-- The menu on the two-line display: the entry shown, the expert mode (rust/zemu/src/ui_toolkit/backends/nanos.rs 47) and
the buffers. -/
structure MenuS where
  pos : Nat
  expert : Bool
  buf : BufS
  deriving DecidableEq, Repr

/-- The entry on the screen. -/
def MenuS.shown (cfg : Config) (m : MenuS) : Option MenuEntry := (menuS cfg m.buf)[m.pos]?

/-- rust/zemu/src/ui_toolkit/backends/nanos.rs 104-115: `show_idle` at an entry. -/
def MenuS.showIdle (pos : Nat) (m : MenuS) : MenuRes MenuS :=
  match m.buf.showIdle m.expert with
  | .ok b => .on { m with pos := pos, buf := b }
  | .error _ => .panic

/-- A button; both buttons on the second entry: rust/zemu/src/ui_toolkit/backends/nanos.rs 172-176, `toggle_expert`. -/
def MenuS.press (cfg : Config) (k : MenuKey) (m : MenuS) : MenuRes MenuS :=
  match k with
  | .left => .on { m with pos := menuPrev m.pos }
  | .right => .on { m with pos := menuNext (menuS cfg m.buf).length m.pos }
  | .both =>
    match (m.shown cfg).bind MenuEntry.call with
    | some .toggle => { m with expert := !m.expert }.showIdle 1
    | some .exit => .exit
    | none => .on m

/-! ### The larger display -/

/-- The menu on the larger display (expert mode: rust/zemu/src/ui_toolkit/backends/nanox.rs 42). -/
structure MenuX where
  pos : Nat
  expert : Bool
  buf : BufX
  deriving DecidableEq, Repr

/-- The entry on the screen. -/
def MenuX.shown (cfg : Config) (m : MenuX) : Option MenuEntry := (menuX cfg m.buf)[m.pos]?

/-- Entering a step: the second one runs `rs_h_expert_update` (rust/app/refactor/view_x.c 47). -/
def MenuX.enter (pos : Nat) (m : MenuX) : MenuRes MenuX :=
  if pos = 1 then
    match m.buf.updateExpert m.expert with
    | .ok b => .on { m with pos := pos, buf := b }
    | .error _ => .panic
  else .on { m with pos := pos }

/-- rust/zemu/src/ui_toolkit/backends/nanox.rs 146-154: `show_idle`, at the first entry. -/
def MenuX.showIdle (m : MenuX) : MenuRes MenuX :=
  match m.buf.showIdle with
  | .ok b => { m with buf := b }.enter 0
  | .error _ => .panic

/-- A button. At an end the step is not entered again. Both buttons on the second entry:
rust/zemu/src/ui_toolkit/backends/nanox.rs 201-207, `toggle_expert`, with rust/app/refactor/view_x.c 105-107. -/
def MenuX.press (cfg : Config) (k : MenuKey) (m : MenuX) : MenuRes MenuX :=
  match k with
  | .left => if menuPrev m.pos = m.pos then .on m else m.enter (menuPrev m.pos)
  | .right =>
    let next := menuNext (menuX cfg m.buf).length m.pos
    if next = m.pos then .on m else m.enter next
  | .both =>
    match (m.shown cfg).bind MenuEntry.call with
    | some .toggle => { m with expert := !m.expert }.enter 1
    | some .exit => .exit
    | none => .on m

/-! ### The device with its menu -/

/-- The device together with the entry of the idle menu that is shown, or will be when the menu is shown next. -/
structure MenuDev where
  dev : Dev
  pos : Nat
  deriving DecidableEq, Repr

/-- The functions of the entries of either menu. -/
def menuCalls : List (Option MenuCall) := [none, some .toggle, none, none, none, some .exit]

/-- The idle menu is shown and takes the buttons. -/
def MenuDev.idle (m : MenuDev) : Prop := m.dev.running = true ∧ m.dev.zui.screen = .idle

instance (m : MenuDev) : Decidable m.idle := inferInstanceAs (Decidable (_ ∧ _))

/-- What a user and a host can do: there is no event for expert mode, which is reached by the buttons. -/
inductive MenuEvent where
  | apdu (buf : Bytes) (rx : Nat)
  | key (k : MenuKey)
  | relaunch
  deriving DecidableEq, Repr

/-- The buttons outside the idle menu. -/
def MenuKey.event : MenuKey → Event
  | .left => .left
  | .right => .right
  | .both => .both

/-- One event. Every way back to the menu shows its first entry (rust/zemu/src/ui_toolkit.rs 55-57, 72-74, 89-91, and
rust/app/c/main.c 126). A request that opens a review or the error screen leaves the menu; others do not draw. Leaving
the app (rust/app/refactor/view_s.c 42-45, rust/app/refactor/view_x.c 51) ends it until it is started again. -/
def MenuDev.step (cfg : Config) (env : Env) (ev : MenuEvent) (m : MenuDev) : MenuDev × Output :=
  match ev with
  | .relaunch => (⟨(m.dev.step cfg env .relaunch).1, 0⟩, (m.dev.step cfg env .relaunch).2)
  | .apdu buf rx =>
    let r := m.dev.step cfg env (.apdu buf rx)
    (⟨r.1, if r.1.zui.screen = .idle then m.pos else 0⟩, r.2)
  | .key k =>
    if m.idle then
      match k with
      | .left => (⟨m.dev, menuPrev m.pos⟩, .quiet)
      | .right => (⟨m.dev, menuNext menuCalls.length m.pos⟩, .quiet)
      | .both =>
        match menuCalls.getD m.pos none with
        | some .toggle => (⟨(m.dev.step cfg env .expert).1, 1⟩, (m.dev.step cfg env .expert).2)
        | some .exit => (⟨{ m.dev with running := false }, m.pos⟩, .quiet)
        | none => (m, .quiet)
    else
      let r := m.dev.step cfg env k.event
      (⟨r.1, 0⟩, r.2)

/-- A run: the final state and what was seen at each event. -/
def MenuDev.run (cfg : Config) (m : MenuDev) : List (Env × MenuEvent) → MenuDev × List Output
  | [] => (m, [])
  | (env, ev) :: es =>
    let r := m.step cfg env ev
    let rest := r.1.run cfg es
    (rest.1, r.2 :: rest.2)

end Tezos
