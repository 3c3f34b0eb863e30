import Verif.Render
/-
The review screens of the two-line device (Nano S): rust/zemu/src/ui_toolkit.rs,
rust/zemu/src/ui_toolkit/backends/nanos.rs and rust/app/refactor/view_s.c.

A review is shown through a `Viewer`: the item count and the items of the pending review at the moment of the
event. Every `render_item` of the app writes a constant title and passes one text to `handle_ui_message`, so an
item is a `Field`. The texts on the display are the bytes up to the first NUL.
-/
namespace Tezos

/-- The pending review as the screens see it: rust/zemu/src/ui/comm.rs (`Viewable::num_items`, `render_item`). -/
structure Viewer where
  numItems : Except VErr UInt8
  item : UInt8 → Except VErr Field

/-- What the display shows: the idle menu, a review screen (title line and the two message lines; on the larger
display title and message, with nothing as second line), or the error screen (rust/app/refactor/view_s.c 70-90,
rust/app/refactor/view_x.c 65-72). -/
inductive Screen where
  | idle
  | review (key line1 line2 : Bytes)
  | error
  deriving DecidableEq, Repr

/-- rust/app/refactor/view_x.c 76-91: the steps of `ux_review_flow` that stay on the display. The other two,
`ux_review_flow_2_start_step` and `ux_review_flow_2_end_step` around the item, move on when entered. -/
inductive XStep where
  | title | item | approve | reject
  deriving DecidableEq, Repr

/-- rust/zemu/src/ui_toolkit.rs 31-42 (`ZUI`) and rust/zemu/src/ui_toolkit/backends/nanox.rs 36-45 (`NanoXBackend`):
the position, the flag that the flow is at the item, the texts of the item, and the step on display. -/
structure ZuiX where
  itemIdx : Nat
  itemCount : Nat
  pageIdx : Nat
  pageCount : Nat
  inside : Bool
  key : Bytes
  message : Bytes
  step : XStep
  deriving DecidableEq, Repr

/-- rust/app/refactor/view_x.c 65-72: the steps of `ux_error_flow`, and the index below its first step (see `ResX`). -/
inductive XError where
  | text | ok | lost
  deriving DecidableEq, Repr

/-- What only the larger display has: the flow of the review and that of the error. -/
structure LargeUi where
  x : ZuiX
  err : XError
  deriving DecidableEq, Repr

/-- The kinds of display: two lines (Nano S) or the larger one (Nano X, Nano S+). -/
inductive Display where
  | small | large
  deriving DecidableEq, Repr

/-- rust/zemu/src/ui_toolkit.rs 31-42: `ZUI`, with the display and the expert flag of `NanoSBackend`
(rust/zemu/src/ui_toolkit/backends/nanos.rs 42-49) or `NanoXBackend` (rust/zemu/src/ui_toolkit/backends/nanox.rs
36-45). The numbers are `usize`. The first four fields are those of the two-line device; a device with the larger
display has its own in `large`. -/
structure Zui where
  itemIdx : Nat
  itemCount : Nat
  pageIdx : Nat
  pageCount : Nat
  expert : Bool
  screen : Screen
  large : Option LargeUi := none
  deriving DecidableEq, Repr

/-- rust/zemu/src/ui_toolkit.rs 44-53 (`new`), with the idle menu of rust/app/c/main.c 126. -/
def Zui.init : Display → Zui
  | .small => ⟨0, 0, 0, 0, false, .idle, none⟩
  | .large => ⟨0, 0, 0, 0, false, .idle, some ⟨⟨0, 0, 0, 0, false, [], [], .title⟩, .text⟩⟩

/-- The kind of the display. -/
def Zui.display (z : Zui) : Display := if z.large.isSome then .large else .small

/-- Expert mode is off, or the display is the larger one, where it does not act on reviews. A condition of properties; no
code asks for it. -/
def Zui.Plain (z : Zui) : Prop := z.expert = false ∨ z.display = .large

instance (z : Zui) : Decidable z.Plain := inferInstanceAs (Decidable (_ ∨ _))

/-- rust/zemu/src/ui_toolkit/backends/nanos.rs 26: `KEY_SIZE`. -/
def keySize : Nat := 18

/-- rust/zemu/src/ui_toolkit/backends/nanos.rs 28: `MESSAGE_LINE_SIZE`, one more than the characters of a line. -/
def lineSize : Nat := 18

/-- rust/zemu/src/ui_toolkit/backends/nanos.rs 29: `MESSAGE_SIZE`. -/
def messageSize : Nat := 35

/-- rust/zemu/src/ui_toolkit.rs 214-231: bytes before the first NUL, those outside `32..=0x7F` replaced by a
dot. -/
def asciify (b : Bytes) : Bytes :=
  (b.takeWhile (· != 0)).map fun c => if 32 ≤ c ∧ c ≤ 0x7F then c else 46

/-- rust/zemu/src/ui_toolkit/backends/nanos.rs 79-102: `split_value_field`. -/
def splitLines (t : Bytes) : Bytes × Bytes :=
  if t.length ≥ lineSize then (t.take (lineSize - 1), t.drop (lineSize - 1)) else (t, [])

/-- rust/zemu/src/ui_toolkit.rs 320-359: `format_key_with_page`. -/
def keyWithPage (key : Bytes) (pageIdx pageCount : Nat) : Bytes :=
  if pageCount > 1 ∧ key.length < keySize then
    let k := key ++ ascii " [" ++ decimal (pageIdx + 1) ++ ascii "/" ++ decimal pageCount ++ ascii "]"
    if k.length + 1 < keySize then k else key
  else key

/-- rust/zemu/src/ui_toolkit.rs 193-247: `render_item`: the title and the text written, and the page count. -/
def renderItem (v : Viewer) (itemIdx pageIdx : Nat) : Except VErr (Bytes × Bytes × Nat) := do
  let f ← v.item (UInt8.ofNat itemIdx)
  let (t, n) ← handleUi f.text messageSize (UInt8.ofNat pageIdx)
  return (asciify f.title, asciify t, n.toNat)

/-- The screen for a title, a text and a page. -/
def pageScreen (key text : Bytes) (pageIdx pageCount : Nat) : Screen :=
  .review (keyWithPage key pageIdx pageCount) (splitLines text).1 (splitLines text).2

/-- rust/zemu/src/ui_toolkit.rs 259-275. -/
def approveScreen : Screen := .review [] (ascii "APPROVE") []

/-- rust/zemu/src/ui_toolkit.rs 276-292. -/
def rejectScreen : Screen := .review [] (ascii "REJECT") []

/-- How a screen update ends: the screen was drawn, or an error was returned, or the review rejected itself
(`ViewError::Reject`), or the app aborted, or it never ends. -/
inductive Upd where
  | shown (z : Zui)
  | failed (z : Zui)
  | rejected (z : Zui)
  | panic
  | hang
  deriving DecidableEq, Repr

/-- rust/zemu/src/ui_toolkit.rs 106-110: `paging_init`. -/
def Zui.pagingInit (z : Zui) : Zui := { z with itemIdx := 0, pageIdx := 0, pageCount := 0 }

/-- rust/zemu/src/ui_toolkit.rs 122-133: `paging_increase`; `INCLUDE_ACTIONS_COUNT` is 1
(rust/zemu/src/ui_toolkit/backends/nanos.rs 31-32). -/
def Zui.pagingIncrease (z : Zui) : Zui :=
  if z.pageIdx + 1 < z.pageCount then { z with pageIdx := z.pageIdx + 1 }
  else if z.itemCount > 0 ∧ z.itemIdx < z.itemCount - 1 + 1 then
    { z with itemIdx := z.itemIdx + 1, pageIdx := 0 }
  else z

/-- rust/zemu/src/ui_toolkit.rs 140-152: `paging_decrease`. -/
def Zui.pagingDecrease (z : Zui) : Zui :=
  if z.pageIdx ≠ 0 then { z with pageIdx := z.pageIdx - 1 }
  else if z.itemIdx > 0 then { z with itemIdx := z.itemIdx - 1, pageIdx := 255 }
  else z

/-- rust/zemu/src/ui_toolkit.rs 296-315: the loop of `review_update_data`. Items announcing zero pages are
skipped; each round moves to the next item or stays at the last forever, so running out of `fuel` (more than the
number of items) is an endless loop. -/
def updateLoop (v : Viewer) : Nat → Zui → Upd
  | 0, _ => .hang
  | fuel + 1, z =>
    match renderItem v z.itemIdx 0 with
    | .error .panic => .panic
    | .error .reject => .rejected z
    | .error _ => .failed z
    | .ok (_, _, n) =>
      let z := { z with pageCount := n }
      let z := if z.pageCount ≠ 0 ∧ z.pageIdx > z.pageCount then { z with pageIdx := z.pageCount - 1 } else z
      match renderItem v z.itemIdx z.pageIdx with
      | .error .panic => .panic
      | .error .reject => .rejected z
      | .error _ => .failed z
      | .ok (key, text, n) =>
        let z := { z with pageCount := n }
        if z.pageCount = 0 then updateLoop v fuel z.pagingIncrease
        else .shown { z with screen := pageScreen key text z.pageIdx z.pageCount }

/-- rust/zemu/src/ui_toolkit.rs 249-318: `review_update_data`. -/
def reviewUpdate (v : Option Viewer) (z : Zui) : Upd :=
  match v with
  | none => .failed z
  | some v =>
    match v.numItems with
    | .error .panic => .panic
    | .error _ => .failed z
    | .ok n =>
      let z := { z with itemCount := n.toNat + 1, pageCount := 1 }
      if z.itemIdx = n.toNat then .shown { z with pageIdx := 0, screen := approveScreen }
      else if z.itemIdx = z.itemCount then .shown { z with pageIdx := 0, screen := rejectScreen }
      else updateLoop v 300 z

/-- rust/zemu/src/ui_toolkit/backends/nanos.rs 138-148: `show_review`. -/
def Zui.showReview (v : Viewer) (z : Zui) : Upd := reviewUpdate (some v) z.pagingInit

/-- rust/zemu/src/ui_toolkit.rs 154-157: `left_button`, up to drawing. -/
def Zui.left (v : Option Viewer) (z : Zui) : Upd := reviewUpdate v z.pagingDecrease

/-- rust/zemu/src/ui_toolkit.rs 159-162: `right_button`, up to drawing. -/
def Zui.right (v : Option Viewer) (z : Zui) : Upd := reviewUpdate v z.pagingIncrease

/-- What pressing both buttons does: rust/zemu/src/ui_toolkit.rs 178-183. -/
inductive Action where
  | approve | reject | nothing
  deriving DecidableEq, Repr

/-- rust/zemu/src/ui_toolkit.rs 164-166 (`is_accept_item`), 173-175 (`is_reject_item`) and 178-183; the
subtraction wraps when there is no item, which no index equals. -/
def Zui.action (z : Zui) : Action :=
  if z.itemCount > 0 ∧ z.itemIdx = z.itemCount - 1 then .approve
  else if z.itemIdx = z.itemCount then .reject
  else .nothing

/-- rust/zemu/src/ui_toolkit.rs 168-171 and 185-189: in expert mode, after the action, go to the approve item. -/
def Zui.expertJump (v : Option Viewer) (z : Zui) : Upd :=
  reviewUpdate v { z with itemIdx := z.itemCount - 1, pageIdx := 0 }

end Tezos
