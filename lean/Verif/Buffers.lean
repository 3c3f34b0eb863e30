import Verif.ZuiX
/-
The static buffers of the display: what `render_item`, `review_update_data` and the screens of rust/zemu/src/ui_toolkit.rs
write to them, on top of what they held before, and what the C code reads from them: up to the first NUL
(rust/app/refactor/view_s.c, rust/app/refactor/view_x.c). Zui.lean and ZuiX.lean have the texts themselves instead.
-/
namespace Tezos

/-- A C string at the start of a buffer. -/
def cString (b : Bytes) : Bytes := b.takeWhile (· != 0)

/-- `buf[..new.len()].copy_from_slice(new)`: the rest of the buffer stays. Too long a text aborts. -/
def writeFront (buf new : Bytes) : Except VErr Bytes :=
  if new.length ≤ buf.length then .ok (new ++ buf.drop new.length) else .error .panic

/-- rust/zemu/src/ui_toolkit.rs 214-231: asciify, in place. What follows the first NUL stays as it is. -/
def asciifyIn (b : Bytes) : Bytes := asciify b ++ b.drop (cString b).length

/-- Whether bytes are UTF-8 (`core::str::from_utf8` of the Rust library, Unicode 15 table 3-7). `need` continuation bytes
are missing, the next one between `lo` and `hi`. -/
def utf8From : Nat → UInt8 → UInt8 → Bytes → Bool
  | 0, _, _, [] => true
  | _ + 1, _, _, [] => false
  | 0, _, _, a :: t =>
    if a < 0x80 then utf8From 0 0x80 0xBF t
    else if 0xC2 ≤ a ∧ a ≤ 0xDF then utf8From 1 0x80 0xBF t
    else if a = 0xE0 then utf8From 2 0xA0 0xBF t
    else if a = 0xED then utf8From 2 0x80 0x9F t
    else if 0xE1 ≤ a ∧ a ≤ 0xEF then utf8From 2 0x80 0xBF t
    else if a = 0xF0 then utf8From 3 0x90 0xBF t
    else if a = 0xF4 then utf8From 3 0x80 0x8F t
    else if 0xF1 ≤ a ∧ a ≤ 0xF3 then utf8From 3 0x80 0xBF t
    else false
  | n + 1, lo, hi, a :: t => if lo ≤ a ∧ a ≤ hi then utf8From n 0x80 0xBF t else false

def isUtf8 (b : Bytes) : Bool := utf8From 0 0x80 0xBF b

/-- `.expect(..)` of a conversion to a string. -/
def expectUtf8 (b : Bytes) : Except VErr Unit := if isUtf8 b then .ok () else .error .panic

/-- rust/zemu/src/ui_toolkit.rs 320-359: `format_key_with_page` on a key buffer of `ks` bytes. -/
def formatKey (ks : Nat) (key : Bytes) (pageIdx pageCount : Nat) : Except VErr Bytes :=
  if pageCount > 1 ∧ (cString key).length < ks then do
    expectUtf8 key
    let k := key.take (cString key).length ++ ascii " [" ++ decimal (pageIdx + 1) ++ ascii "/" ++ decimal pageCount ++
      ascii "]" ++ [0]
    if k.length < ks then writeFront key k else return key
  else .ok key

/-! ### The two-line display -/

/-- rust/zemu/src/ui_toolkit/backends/nanos.rs 42-49: the buffers of `NanoSBackend`. -/
structure BufS where
  key : Bytes
  value : Bytes
  value2 : Bytes
  deriving DecidableEq, Repr

/-- rust/zemu/src/ui_toolkit/backends/nanos.rs 51-61: `default`. -/
def BufS.init : BufS := ⟨List.replicate keySize 0, List.replicate lineSize 0, List.replicate lineSize 0⟩

/-- rust/app/refactor/view_s.c 64-69: the three lines of a review. -/
def BufS.screen (b : BufS) : Screen := .review (cString b.key) (cString b.value) (cString b.value2)

/-- rust/zemu/src/ui_toolkit/backends/nanos.rs 75-77: `message_buf`. -/
def messageS : Bytes := List.replicate messageSize 0

/-- rust/zemu/src/ui_toolkit/backends/nanos.rs 79-102: `split_value_field`. The message is cut at its first NUL and at the
end of a line; all bytes before the NUL are ASCII here, so that cutting the string does not abort. -/
def BufS.split (msg : Bytes) (b : BufS) : Except VErr BufS := do
  let len := (cString msg).length
  let t := msg.take len
  let lines := if len ≥ lineSize then (t.take (lineSize - 1), t.drop (lineSize - 1)) else (t, [])
  let value ← writeFront b.value (lines.1 ++ [0])
  let value2 ← writeFront b.value2 (lines.2 ++ [0])
  return { b with value := value, value2 := value2 }

/-- rust/zemu/src/ui_toolkit.rs 193-247: `render_item`, with the texts as every `render_item` of the app writes them: the
title with its terminator, then the message by `handle_ui_message` (rust/app/src/handlers/utils.rs 199-219). On an error
the title may have been written; the buffers are taken as they were. -/
def BufS.renderItem (v : Viewer) (itemIdx pageIdx : Nat) (b : BufS) : Except VErr (BufS × Nat) := do
  let f ← v.item (UInt8.ofNat itemIdx)
  let key ← writeFront b.key (f.title ++ [0])
  let (t, n) ← handleUi f.text messageS.length (UInt8.ofNat pageIdx)
  let msg ← writeFront messageS (t ++ [0])
  let b ← { b with key := asciifyIn key }.split (asciifyIn msg)
  return (b, n.toNat)

/-- How `review_update_data` ends (see `Upd`), with the buffers. -/
inductive UpdS where
  | shown (z : Zui) (b : BufS)
  | failed (z : Zui) (b : BufS)
  | rejected (z : Zui) (b : BufS)
  | panic
  | hang
  deriving DecidableEq, Repr

def UpdS.ofError (z : Zui) (b : BufS) : VErr → UpdS
  | .panic => .panic
  | .reject => .rejected z b
  | _ => .failed z b

/-- The end of a drawing: the buffers, or an abort. -/
def UpdS.drawn (z : Zui) : Except VErr BufS → UpdS
  | .ok b => .shown z b
  | .error _ => .panic

/-- rust/zemu/src/ui_toolkit.rs 296-315: the loop of `review_update_data`; about `fuel` see `updateLoop`. -/
def updateLoopS (v : Viewer) : Nat → Zui → BufS → UpdS
  | 0, _, _ => .hang
  | fuel + 1, z, b =>
    match b.renderItem v z.itemIdx 0 with
    | .error e => .ofError z b e
    | .ok (b, n) =>
      let z := { z with pageCount := n }
      let z := if z.pageCount ≠ 0 ∧ z.pageIdx > z.pageCount then { z with pageIdx := z.pageCount - 1 } else z
      match b.renderItem v z.itemIdx z.pageIdx with
      | .error e => .ofError z b e
      | .ok (b, n) =>
        let z := { z with pageCount := n }
        match formatKey keySize b.key z.pageIdx z.pageCount with
        | .error _ => .panic
        | .ok key =>
          let b := { b with key := key }
          if z.pageCount = 0 then updateLoopS v fuel z.pagingIncrease b else .shown z b

/-- rust/zemu/src/ui_toolkit.rs 259-292: a label instead of an item: no title, and the label as message. -/
def BufS.label (text : String) (b : BufS) : Except VErr BufS := do
  let msg ← writeFront messageS (ascii text ++ [0])
  { b with key := b.key.set 0 0 }.split msg

/-- rust/zemu/src/ui_toolkit.rs 249-318: `review_update_data`. -/
def reviewUpdateS (v : Option Viewer) (z : Zui) (b : BufS) : UpdS :=
  match v with
  | none => .failed z b
  | some v =>
    match v.numItems with
    | .error .panic => .panic
    | .error _ => .failed z b
    | .ok n =>
      let z := { z with itemCount := n.toNat + 1, pageCount := 1 }
      if z.itemIdx = n.toNat then .drawn { z with pageIdx := 0 } (b.label "APPROVE")
      else if z.itemIdx = z.itemCount then .drawn { z with pageIdx := 0 } (b.label "REJECT")
      else updateLoopS v 300 z b

/-- rust/zemu/src/ui_toolkit.rs 362-378: `show_error`. -/
def BufS.showError (b : BufS) : Except VErr BufS := do
  let key ← writeFront b.key (ascii "ERROR" ++ [0])
  let msg ← writeFront messageS (ascii "SHOWING DATA" ++ [0])
  { b with key := key }.split msg

/-- What stands under "Expert mode:" (rust/zemu/src/ui_toolkit/backends/nanos.rs 178-186,
rust/zemu/src/ui_toolkit/backends/nanox.rs 124-132). -/
def expertText (expert : Bool) : String := if expert then "enabled" else "disabled"

/-- rust/zemu/src/ui_toolkit/backends/nanos.rs 178-186: `update_expert`. -/
def BufS.updateExpert (expert : Bool) (b : BufS) : Except VErr BufS := do
  let value ← writeFront b.value (ascii (expertText expert) ++ [0])
  return { b with value := value }

/-- rust/zemu/src/ui_toolkit/backends/nanos.rs 104-115: `show_idle`; the app gives no status. -/
def BufS.showIdle (expert : Bool) (b : BufS) : Except VErr BufS := do
  let key ← writeFront b.key (ascii "DO NOT USE" ++ [0])
  { b with key := key }.updateExpert expert

/-! ### The larger display -/

/-- rust/zemu/src/ui_toolkit/backends/nanox.rs 36-45: the buffers of `NanoXBackend`. -/
structure BufX where
  key : Bytes
  message : Bytes
  deriving DecidableEq, Repr

/-- rust/zemu/src/ui_toolkit/backends/nanox.rs 47-57: `default`. -/
def BufX.init : BufX := ⟨List.replicate keySizeX 0, List.replicate messageSizeX 0⟩

/-- rust/app/refactor/view_x.c 78: the texts of an item as the flow reads them. -/
def BufX.on (b : BufX) (z : ZuiX) : ZuiX := { z with key := cString b.key, message := cString b.message }

/-- rust/zemu/src/ui_toolkit.rs 193-247: `render_item`; see `BufS.renderItem`. The message is written in place, into a
buffer that must be UTF-8 as it is (rust/zemu/src/ui_toolkit/backends/nanox.rs 138-142, `message_buf`). -/
def BufX.renderItem (v : Viewer) (itemIdx pageIdx : Nat) (b : BufX) : Except VErr (BufX × Nat) := do
  expectUtf8 b.message
  let f ← v.item (UInt8.ofNat itemIdx)
  let key ← writeFront b.key (f.title ++ [0])
  let (t, n) ← handleUi f.text b.message.length (UInt8.ofNat pageIdx)
  let msg ← writeFront b.message (t ++ [0])
  return (⟨asciifyIn key, asciifyIn msg⟩, n.toNat)

/-- How `review_update_data` ends (see `UpdX`), with the buffers. -/
inductive UpdXB where
  | shown (z : ZuiX) (b : BufX)
  | noData (z : ZuiX) (b : BufX)
  | rejected (z : ZuiX) (b : BufX)
  | failed (z : ZuiX) (b : BufX)
  | panic
  | hang
  deriving DecidableEq, Repr

def UpdXB.ofError (z : ZuiX) (b : BufX) : VErr → UpdXB
  | .panic => .panic
  | .reject => .rejected z b
  | .noData => .noData z b
  | .unknown => .failed z b

/-- rust/zemu/src/ui_toolkit.rs 296-315: the loop of `review_update_data`; about `fuel` see `updateLoop`. -/
def updateLoopXB (v : Viewer) : Nat → ZuiX → BufX → UpdXB
  | 0, _, _ => .hang
  | fuel + 1, z, b =>
    match b.renderItem v z.itemIdx 0 with
    | .error e => .ofError z b e
    | .ok (b, n) =>
      let z := { z with pageCount := n }
      let z := if z.pageCount ≠ 0 ∧ z.pageIdx > z.pageCount then { z with pageIdx := z.pageCount - 1 } else z
      match b.renderItem v z.itemIdx z.pageIdx with
      | .error e => .ofError z b e
      | .ok (b, n) =>
        let z := { z with pageCount := n }
        match formatKey keySizeX b.key z.pageIdx z.pageCount with
        | .error _ => .panic
        | .ok key =>
          let b := { b with key := key }
          if z.pageCount = 0 then updateLoopXB v fuel z.pagingIncrease b else .shown z b

/-- rust/zemu/src/ui_toolkit.rs 249-318: `review_update_data` without the labels of the two-line device. -/
def reviewUpdateXB (v : Option Viewer) (z : ZuiX) (b : BufX) : UpdXB :=
  match v with
  | none => .noData z b
  | some v =>
    match v.numItems with
    | .error e => .ofError z b e
    | .ok n => updateLoopXB v 300 { z with itemCount := n.toNat + 1, pageCount := 1 } b

/-- rust/zemu/src/ui_toolkit.rs 362-378: `show_error`. -/
def BufX.showError (b : BufX) : Except VErr BufX := do
  let key ← writeFront b.key (ascii "ERROR" ++ [0])
  expectUtf8 b.message
  let msg ← writeFront b.message (ascii "SHOWING DATA" ++ [0])
  return ⟨key, msg⟩

/-- rust/zemu/src/ui_toolkit/backends/nanox.rs 124-132: `update_expert`. -/
def BufX.updateExpert (expert : Bool) (b : BufX) : Except VErr BufX := do
  let msg ← writeFront b.message (ascii (expertText expert) ++ [0])
  return { b with message := msg }

/-- rust/zemu/src/ui_toolkit/backends/nanox.rs 146-154: `show_idle`; the app gives no status. -/
def BufX.showIdle (b : BufX) : Except VErr BufX := do
  let key ← writeFront b.key (ascii "DO NOT USE" ++ [0])
  return { b with key := key }

end Tezos
