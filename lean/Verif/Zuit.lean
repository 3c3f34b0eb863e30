import Verif.Buffers
/-
The tool with which the tests of the repository look at reviews: rust/zuit, and the comparison with the expected texts in
rust/app/src/parser/integration_tests.rs. The functions that parse operations have variants for tests
(rust/app/src/parser.rs 139-161 and others); these read the same, and print what they read.
-/
namespace Tezos

/-- rust/zuit/src/lib.rs 24-28: `Page`, the two buffers. -/
structure TestPage where
  title : Bytes
  message : Bytes
  deriving DecidableEq, Repr

/-- rust/zuit/src/lib.rs 150-160: one page of an item, in new buffers of `T` and `M` bytes; see `BufS.renderItem`. -/
def testRender (v : Viewer) (T M : Nat) (item page : UInt8) : Except VErr (TestPage × UInt8) := do
  let f ← v.item item
  let title ← writeFront (List.replicate T 0) (f.title ++ [0])
  let (t, n) ← handleUi f.text M page
  let message ← writeFront (List.replicate M 0) (t ++ [0])
  return (⟨title, message⟩, n)

/-- rust/zuit/src/lib.rs 148-186: the loop over the pages of an item, with what is printed (162-177). Every error aborts.
At most 255 pages are asked for, which is the `fuel` to start with. -/
def drivePages (v : Viewer) (T M : Nat) (item : UInt8) : Nat → UInt8 → UInt8 → Except VErr (List TestPage)
  | 0, _, _ => .ok []
  | fuel + 1, page, max =>
    if page < max then do
      let (p, n) ← testRender v T M item page
      expectUtf8 p.title
      expectUtf8 p.message
      return p :: (← drivePages v T M item fuel (page + 1) n)
    else .ok []

/-- rust/zuit/src/lib.rs 136-138: the loop over the items. -/
def driveItems (v : Viewer) (T M : Nat) : List Nat → Except VErr (List (List TestPage))
  | [] => .ok []
  | i :: is => do
    let pages ← drivePages v T M (UInt8.ofNat i) 255 0 255
    return pages :: (← driveItems v T M is)

/-- rust/zuit/src/lib.rs 129-188: `drive`. -/
def drive (v : Viewer) (T M : Nat) : Except VErr (List (List TestPage)) := do
  let n ← v.numItems
  driveItems v T M (List.range n.toNat)

/-- rust/app/src/parser/integration_tests.rs 60-69: `ExpectedPage`, an item as the author of a test expects it. -/
structure ExpectedPage where
  idx : Nat
  title : Bytes
  message : List Bytes
  deriving DecidableEq, Repr

/-- The text in a buffer: rust/app/src/utils.rs 41-51 (`strlen`, which aborts if there is no NUL), and the conversion
to a string, which aborts if it is not UTF-8; `none` is an abort. -/
def bufferText (b : Bytes) : Option Bytes :=
  if (0 : UInt8) ∈ b ∧ isUtf8 (cString b) = true then some (cString b) else none

/-- rust/app/src/parser/integration_tests.rs 444-479: the comparison of one page. -/
def pageAsExpected (title : Bytes) (p : TestPage × Bytes) : Bool :=
  match bufferText p.1.title, bufferText p.1.message with
  | some t, some m => title.isPrefixOf t && decide (m = p.2)
  | _, _ => false

/-- rust/app/src/parser/integration_tests.rs 427-480: one item; `zip` ends with the shorter list. -/
def itemAsExpected (out : List (List TestPage)) (e : ExpectedPage) : Bool :=
  match out[e.idx]? with
  | none => false
  | some pages => (pages.zip e.message).all (pageAsExpected e.title)

/-- rust/app/src/parser/integration_tests.rs 416-484: `verify_ui`: whether the test passes. -/
def verifyUi (v : Viewer) (ui : List ExpectedPage) : Bool :=
  match drive v 18 4096 with
  | .error _ => false
  | .ok out => ui.all (itemAsExpected out)

/-- rust/app/src/parser/integration_tests.rs 81-97 and rust/app/src/handlers/signing.rs 141-150 (`to_sign_ui`): whether
the display of the operations `blob` is as expected, when `usize` has 32 bits as on the device. The tests as they run on
a computer with 64 bits, and the rest of them, which compares the fields of the operations with a description in JSON,
are in `Verif.Samples`. -/
def testUi (cr : Crypto) (blob : Bytes) (ui : List ExpectedPage) : Bool :=
  match operationNew blob with
  | .error _ => false
  | .ok (branch, ops) => verifyUi ⟨numItemsOps ops, signOpItem cr branch ops⟩ ui

end Tezos
