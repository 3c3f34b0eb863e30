import Verif.Zui
/- The review screens of the devices with the larger display (Nano X and S+): rust/zemu/src/ui_toolkit.rs,
rust/zemu/src/ui_toolkit/backends/nanox.rs (rust/zemu/src/ui_toolkit/backends/nanosplus.rs differs only in names) and
rust/app/refactor/view_x.c.

A review is a flow of steps of the operating system. Its engine is not part of the repository and is taken as follows:
entering a step runs the code given with it; `ux_flow_next` and `ux_flow_prev` enter the next and the previous step, if
there is one; a button leaves a step to its side once the layout has shown all parts of a long text; pressing both
buttons runs the code of `UX_STEP_VALID` steps and does nothing on others. The parts into which the layout of the system
cuts a long text are left out: an item is one screen here.
-/
namespace Tezos

/-- rust/zemu/src/ui_toolkit/backends/nanox.rs 24: `KEY_SIZE`. -/
def keySizeX : Nat := 64

/-- rust/zemu/src/ui_toolkit/backends/nanox.rs 26: `MESSAGE_SIZE`. -/
def messageSizeX : Nat := 4096

/-- How `review_update_data` ends: drawn, no data, rejected by the review itself, another error, abort, or never. -/
inductive UpdX where
  | shown (z : ZuiX)
  | noData (z : ZuiX)
  | rejected (z : ZuiX)
  | failed (z : ZuiX)
  | panic
  | hang
  deriving DecidableEq, Repr

/-- How a button ends: a step of the review is on display; the error flow is (at its first step or, after
`crapoline_ux_flow_next`, at its second); the index of the error flow was decreased below its first step
(rust/app/refactor/view_x.c 147-153 on the flow that rust/app/refactor/view_x.c 117-125 has just started at index 0);
the review rejected itself; abort; or never. -/
inductive ResX where
  | on (z : ZuiX)
  | error (z : ZuiX)
  | lost (z : ZuiX)
  | rejected (z : ZuiX)
  | panic
  | hang
  deriving DecidableEq, Repr

/-- rust/zemu/src/ui_toolkit.rs 106-110: `paging_init`. -/
def ZuiX.pagingInit (z : ZuiX) : ZuiX := { z with itemIdx := 0, pageIdx := 0, pageCount := 0 }

/-- rust/zemu/src/ui_toolkit.rs 122-133: `paging_increase`; `INCLUDE_ACTIONS_COUNT` is 0
(rust/zemu/src/ui_toolkit/backends/nanox.rs 118). -/
def ZuiX.pagingIncrease (z : ZuiX) : ZuiX :=
  if z.pageIdx + 1 < z.pageCount then { z with pageIdx := z.pageIdx + 1 }
  else if z.itemCount > 0 ∧ z.itemIdx < z.itemCount - 1 then { z with itemIdx := z.itemIdx + 1, pageIdx := 0 }
  else z

/-- rust/zemu/src/ui_toolkit.rs 135-138: `paging_can_decrease`. -/
def ZuiX.canDecrease (z : ZuiX) : Bool := z.pageIdx ≠ 0 || z.itemIdx > 0

/-- rust/zemu/src/ui_toolkit.rs 140-152: `paging_decrease`. -/
def ZuiX.pagingDecrease (z : ZuiX) : ZuiX :=
  if z.pageIdx ≠ 0 then { z with pageIdx := z.pageIdx - 1 }
  else if z.itemIdx > 0 then { z with itemIdx := z.itemIdx - 1, pageIdx := 255 }
  else z

/-- rust/zemu/src/ui_toolkit.rs 193-247: `render_item`: the title and the text written, and the page count. -/
def renderItemX (v : Viewer) (itemIdx pageIdx : Nat) : Except VErr (Bytes × Bytes × Nat) := do
  let f ← v.item (UInt8.ofNat itemIdx)
  let (t, n) ← handleUi f.text messageSizeX (UInt8.ofNat pageIdx)
  return (asciify f.title, asciify t, n.toNat)

/-- rust/zemu/src/ui_toolkit.rs 320-359: `format_key_with_page`. -/
def keyWithPageX (key : Bytes) (pageIdx pageCount : Nat) : Bytes :=
  if pageCount > 1 ∧ key.length < keySizeX then
    let k := key ++ ascii " [" ++ decimal (pageIdx + 1) ++ ascii "/" ++ decimal pageCount ++ ascii "]"
    if k.length + 1 < keySizeX then k else key
  else key

/-- An error of a `Viewable` in `review_update_data`. -/
def UpdX.ofError (z : ZuiX) : VErr → UpdX
  | .panic => .panic
  | .reject => .rejected z
  | .noData => .noData z
  | .unknown => .failed z

/-- rust/zemu/src/ui_toolkit.rs 296-315: the loop of `review_update_data`; about `fuel` see `updateLoop`. On an error
the buffers may hold a part of the next texts; the texts stay in this model, since the step is left or the error flow
started. The buffers themselves are in Buffers.lean. -/
def updateLoopX (v : Viewer) : Nat → ZuiX → UpdX
  | 0, _ => .hang
  | fuel + 1, z =>
    match renderItemX v z.itemIdx 0 with
    | .error e => .ofError z e
    | .ok (_, _, n) =>
      let z := { z with pageCount := n }
      let z := if z.pageCount ≠ 0 ∧ z.pageIdx > z.pageCount then { z with pageIdx := z.pageCount - 1 } else z
      match renderItemX v z.itemIdx z.pageIdx with
      | .error e => .ofError z e
      | .ok (key, text, n) =>
        let z := { z with pageCount := n }
        if z.pageCount = 0 then updateLoopX v fuel { z.pagingIncrease with key := key, message := text }
        else .shown { z with key := keyWithPageX key z.pageIdx z.pageCount, message := text }

/-- rust/zemu/src/ui_toolkit.rs 249-318: `review_update_data` without the labels of the two-line device. -/
def reviewUpdateX (v : Option Viewer) (z : ZuiX) : UpdX :=
  match v with
  | none => .noData z
  | some v =>
    match v.numItems with
    | .error e => .ofError z e
    | .ok n => updateLoopX v 300 { z with itemCount := n.toNat + 1, pageCount := 1 }

/-- rust/app/refactor/view_x.c 78 and rust/zemu/src/ui_toolkit/backends/nanox.rs 301-304: entering the item
(`rs_h_review_loop_inside`). -/
def ZuiX.enterItem (z : ZuiX) : ZuiX := { z with inside := true, step := .item }

/-- rust/zemu/src/ui_toolkit/backends/nanox.rs 182-189 (`update_review`), then the step that follows: the item, or, once
the error flow was started, `after`. Without data the old texts stay. -/
def UpdX.thenItem (after : ZuiX → ResX) : UpdX → ResX
  | .shown z | .noData z => .on z.enterItem
  | .rejected z => .rejected z
  | .failed z => after z
  | .panic => .panic
  | .hang => .hang

/-- rust/zemu/src/ui_toolkit/backends/nanox.rs 60-83: `review_loop_start`. -/
def ZuiX.loopStart (v : Option Viewer) (z : ZuiX) : ResX :=
  if z.inside then
    if z.canDecrease then (reviewUpdateX v z.pagingDecrease).thenItem .error
    else .on { z with inside := false, step := .title }
  else (reviewUpdateX v z.pagingInit).thenItem .error

/-- rust/zemu/src/ui_toolkit/backends/nanox.rs 85-112: `review_loop_end`. -/
def ZuiX.loopEnd (v : Option Viewer) (z : ZuiX) : ResX :=
  if z.inside then
    match reviewUpdateX v z.pagingIncrease with
    | .shown z => .on z.enterItem
    | .noData z => .on { z with inside := false, step := .approve }
    | .rejected z => .rejected z
    | .failed z => .lost z
    | .panic => .panic
    | .hang => .hang
  else (reviewUpdateX v z.pagingDecrease).thenItem .lost

/-- rust/zemu/src/ui_toolkit/backends/nanox.rs 166-180: `show_review`. -/
def ZuiX.showReview (z : ZuiX) : ZuiX := { z.pagingInit.pagingDecrease with inside := false, step := .title }

/-- The right button, past the last part of a text: rust/app/refactor/view_x.c 83-91. -/
def ZuiX.right (v : Option Viewer) (z : ZuiX) : ResX :=
  match z.step with
  | .title => z.loopStart v
  | .item => z.loopEnd v
  | .approve => .on { z with step := .reject }
  | .reject => .on z

/-- The left button, before the first part of a text: rust/app/refactor/view_x.c 83-91. -/
def ZuiX.left (v : Option Viewer) (z : ZuiX) : ResX :=
  match z.step with
  | .title => .on z
  | .item => z.loopStart v
  | .approve => z.loopEnd v
  | .reject => .on { z with step := .approve }

/-- Both buttons: rust/app/refactor/view_x.c 80-81, rust/zemu/src/ui_toolkit/backends/nanox.rs 281-289. -/
def ZuiX.action (z : ZuiX) : Action :=
  match z.step with
  | .approve => .approve
  | .reject => .reject
  | _ => .nothing

/-! ### Both kinds of display -/

/-- rust/app/refactor/view_x.c 76-81: what a step of the review looks like. -/
def ZuiX.screen (x : ZuiX) : Screen :=
  match x.step with
  | .title => .review (ascii "Please") (ascii "review") []
  | .item => .review x.key x.message []
  | .approve => approveScreen
  | .reject => rejectScreen

/-- A step of the review on the larger display. -/
def Zui.atStep (z : Zui) (l : LargeUi) (x : ZuiX) : Zui := { z with screen := x.screen, large := some { l with x := x } }

/-- The error flow on the larger display. -/
def Zui.atError (z : Zui) (x : ZuiX) (e : XError) : Zui := { z with large := some ⟨x, e⟩ }

/-- The outcome of a button on the larger display. `e` is the step of the error flow reached once a review that
rejected itself (rust/zemu/src/ui_toolkit.rs 236-239) shows its error: rust/zemu/src/ui_toolkit/backends/nanox.rs
78-82 goes on from its first step, rust/zemu/src/ui_toolkit/backends/nanox.rs 108-111 goes back from it. -/
def Zui.ofResX (z : Zui) (l : LargeUi) (e : XError) : ResX → Upd
  | .on x => .shown (z.atStep l x)
  | .error x => .failed (z.atError x .ok)
  | .lost x => .failed (z.atError x .lost)
  | .rejected x => .rejected (z.atError x e)
  | .panic => .panic
  | .hang => .hang

/-- Showing a review: rust/zemu/src/ui_toolkit/backends/nanos.rs 138-148, rust/zemu/src/ui_toolkit/backends/nanox.rs
166-180. -/
def Zui.openReview (v : Viewer) (z : Zui) : Upd :=
  match z.large with
  | none => z.showReview v
  | some l => .shown (z.atStep l l.x.showReview)

/-- The left button during a review. -/
def Zui.goLeft (v : Option Viewer) (z : Zui) : Upd :=
  match z.large with
  | none => z.left v
  | some l => z.ofResX l (if l.x.step = .item then .ok else .lost) (l.x.left v)

/-- The right button during a review. -/
def Zui.goRight (v : Option Viewer) (z : Zui) : Upd :=
  match z.large with
  | none => z.right v
  | some l => z.ofResX l (if l.x.step = .title then .ok else .lost) (l.x.right v)

/-- Both buttons during a review. -/
def Zui.chosen (z : Zui) : Action :=
  match z.large with
  | none => z.action
  | some l => l.x.action

/-- Whether the expert mode jumps to the approve item after both buttons: rust/zemu/src/ui_toolkit.rs 185-189, which the
larger display never runs (rust/app/refactor/view_x.c 80-81 call `approve` and `reject`). -/
def Zui.jumps (z : Zui) : Bool := z.expert && z.large.isNone

/-- The error flow of the larger display, moved by a button (rust/app/refactor/view_x.c 65-72). -/
def Zui.moveError (ev : XError → XError) (z : Zui) : Zui :=
  { z with large := z.large.map fun l => { l with err := ev l.err } }

def XError.next : XError → XError
  | .text => .ok
  | e => e

def XError.prev : XError → XError
  | .ok => .text
  | e => e

/-- Whether the right button closes the error screen (rust/app/refactor/view_s.c 86-88). -/
def Zui.closesRight (z : Zui) : Bool := z.large.isNone

/-- Whether pressing both buttons closes the error screen (rust/app/refactor/view_x.c 66). -/
def Zui.closesBoth (z : Zui) : Bool :=
  match z.large with
  | none => false
  | some l => l.err = .ok

end Tezos
