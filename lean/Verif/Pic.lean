import Verif.Bakers
import Verif.Buffers
/-
Where the constants of the app are: the code, its constants and its flash records are linked for one address and
installed at another, and pointers stored among them stay as they were linked. `PIC` of rust/bolos-sys/src/pic.rs
translates them. The rest of the model takes constants, tables and methods for what the source says they are; here they
are found in memory as the code finds them. In the mock of the tests (rust/bolos-mock/src/pic.rs 37-86) `PIC` does
nothing.
Not modelled: alignment; wrapping of addresses at 32 bits (an address is a number, and an image that is installed ends
below 2^32).
-/
namespace Tezos

/-- The memory of a device on which the app is installed. `image`: the code, the constants and the flash records of the
app, linked for the address `link` and installed at `load`, byte for byte. `rest`: whatever else can be read, as the RAM
of the app; `none` is memory that the app must not read. -/
structure Placed where
  link : Nat
  image : Bytes
  load : Nat
  rest : Nat → Option UInt8

/-- How an access goes wrong: `fault`, memory is read, written or executed that the app must not touch; `panic`. -/
inductive MemErr where
  | fault
  | panic
  deriving DecidableEq, Repr

namespace Placed

/-- Whether an address is one of the image where it is installed. -/
abbrev inLoad (m : Placed) (a : Nat) : Prop := m.load ≤ a ∧ a < m.load + m.image.length

/-- Whether an address is one of the image as it was linked. -/
abbrev inLink (m : Placed) (a : Nat) : Prop := m.link ≤ a ∧ a < m.link + m.image.length

/-- The byte at an address. -/
def byte (m : Placed) (a : Nat) : Except MemErr UInt8 :=
  match if m.inLoad a then m.image[a - m.load]? else m.rest a with
  | some b => .ok b
  | none => .error .fault

/-- The `n` bytes from an address on. -/
def bytes (m : Placed) : Nat → Nat → Except MemErr Bytes
  | _, 0 => .ok []
  | a, n + 1 => do
    let b ← m.byte a
    let t ← m.bytes (a + 1) n
    .ok (b :: t)

/-- The number that bytes stand for, least significant first. -/
def ofLE : Bytes → Nat
  | [] => 0
  | b :: t => b.toNat + 256 * ofLE t

/-- A pointer or a length in memory: 32 bits, little endian. -/
def word (m : Placed) (a : Nat) : Except MemErr Nat := do
  let t ← m.bytes a 4
  .ok (ofLE t)

/-- The function `pic` of the operating system (rust/bolos-sys/src/bindings/bindingsS.rs 10499): an address of the image
as it was linked becomes the one where it is installed, any other address stays. External; modelled after its
documentation. -/
def pic (m : Placed) (a : Nat) : Nat := if m.inLink a then a - m.link + m.load else a

/-! ### `PIC` -/

/-- A reference to a slice or string. -/
structure Ref where
  ptr : Nat
  len : Nat
  deriving DecidableEq, Repr

/-- rust/bolos-sys/src/pic.rs 57-66 and 72-82: `get_ref`, `get_mut`, also through `Deref` and `DerefMut` (185-197): from
the address of the data to the address used. -/
def getRef (m : Placed) (data : Nat) : Nat := m.pic data

/-- rust/bolos-sys/src/pic.rs 85-103 and 105-123: `into_inner` of a reference to one value. -/
def intoInner (m : Placed) (data : Nat) : Nat := m.pic data

/-- rust/bolos-sys/src/pic.rs 145-164: `into_inner` of a slice of bytes. -/
def sliceInner (m : Placed) (r : Ref) : Ref := ⟨m.pic r.ptr, r.len⟩

/-- The bytes a reference refers to. -/
def deref (m : Placed) (r : Ref) : Except MemErr Bytes := m.bytes r.ptr r.len

/-- rust/bolos-sys/src/pic.rs 125-143: `into_inner` of a string. -/
def strInner (m : Placed) (r : Ref) : Except MemErr Ref := do
  let d := m.sliceInner r
  let t ← m.deref d
  if isUtf8 t then .ok d else .error .panic

/-- rust/bolos-sys/src/pic.rs 166-183: `PIC::manual`. -/
def manual (m : Placed) (a : Nat) : Nat := m.pic a

/-! ### The table of bakers -/

/-- A reference stored in memory: the pointer and the length. -/
def refAt (m : Placed) (a : Nat) : Except MemErr Ref := do
  let p ← m.word a
  let n ← m.word (a + 4)
  .ok ⟨p, n⟩

/-- Where the three references of an entry of the table are in it, and its size; the compiler chooses. -/
structure Layout where
  pfx : Nat
  hash : Nat
  name : Nat
  size : Nat

/-- rust/app-derive/src/unroll.rs 153-161: the comparison of the entry at an address with the key looked up. -/
def probe (m : Placed) (lay : Layout) (a : Nat) (pfx hash : Bytes) : Except MemErr Ordering := do
  let p ← m.refAt (a + lay.pfx)
  let h ← m.refAt (a + lay.hash)
  let p := m.sliceInner p
  let h := m.sliceInner h
  let pb ← m.deref p
  match bytesCmp pb pfx with
  | .eq => do
    let hb ← m.deref h
    .ok (bytesCmp hb hash)
  | o => .ok o

/-- `core::slice::binary_search_by` (`binarySearch` of Bakers.lean) with a comparison that reads memory. -/
def search (cmp : Nat → Except MemErr Ordering) : Nat → Nat → Nat → Except MemErr (Option Nat)
  | 0, _, _ => .ok none
  | f + 1, left, right =>
    if left < right then do
      let mid := left + (right - left) / 2
      match ← cmp mid with
      | .lt => search cmp f (mid + 1) right
      | .gt => search cmp f left mid
      | .eq => .ok (some mid)
    else .ok none

/-- rust/app-derive/src/unroll.rs 135-168: `baker_lookup`, with `table` the reference `KNOWN_BAKERS` (its length counts
entries); `none` is `BakerNotFound`. -/
def bakerLookup (m : Placed) (lay : Layout) (table : Ref) (pfx hash : Bytes) : Except MemErr (Option Ref) := do
  let ptr := m.manual table.ptr
  match ← search (fun i => m.probe lay (ptr + i * lay.size) pfx hash) (table.len + 1) 0 table.len with
  | none => .ok none
  | some i => do
    let name ← m.refAt (ptr + i * lay.size + lay.name)
    let name ← m.strInner name
    .ok (some name)

/-! ### Methods of the view that is shown -/

/-- The methods of a view (rust/zemu/src/ui/manual_vtable.rs 32-38: the fields of `ViewableVTable`). -/
inductive Method where
  | numItems
  | renderItem
  | accept
  | reject
  | drop
  deriving DecidableEq, Repr

/-- rust/zemu/src/ui/manual_vtable.rs 84-88: `RefMutDynViewable`, the addresses of the view and of the table of its
methods. -/
structure DynView where
  ptr : Nat
  vtable : Nat
  deriving DecidableEq, Repr

/-- rust/zemu/src/ui/manual_vtable.rs 138-145: `From`, with the address of `VTABLE` of the type of the view. -/
def dynView (m : Placed) (obj vtable : Nat) : DynView := ⟨obj, m.intoInner vtable⟩

/-- A call of the function at an address; `code` has the functions of the image, by their place in it. -/
def call {φ : Type} (m : Placed) (code : Nat → Option φ) (a : Nat) : Except MemErr φ :=
  match if m.inLoad a then code (a - m.load) else none with
  | some f => .ok f
  | none => .error .fault

/-- rust/zemu/src/ui/manual_vtable.rs 90-136: a method of the view is called: which function runs, on what. `pos` is
where the fields of `ViewableVTable` are in it; the compiler chooses. -/
def invoke {φ : Type} (m : Placed) (code : Nat → Option φ) (pos : Method → Nat) (d : DynView) (f : Method) :
    Except MemErr (φ × Nat) := do
  let toPic ← m.word (d.vtable + pos f)
  let picced := m.manual toPic
  let fn ← m.call code picced
  .ok (fn, d.ptr)

/-! ### Flash records -/

/-- `nvm_write` of the operating system: the bytes from an address on are replaced; only flash of the app may be written.
External. -/
def nvmWrite (m : Placed) (dst : Nat) (src : Bytes) : Except MemErr Placed :=
  if m.load ≤ dst ∧ dst + src.length ≤ m.load + m.image.length then
    .ok { m with image := m.image.take (dst - m.load) ++ src ++ m.image.drop (dst - m.load + src.length) }
  else .error .fault

/-- rust/bolos-impl/src/nvm.rs 60-91: `NVM::write` of a static of `n` bytes at the address `data`, reached through `PIC`
(rust/bolos-derive/src/nvm.rs 179-183); `none` is `NVMError::Overflow`. Simplified: no exception of the operating system
(Catch.lean has them), and the build is one without debug assertions. -/
def recordWrite (m : Placed) (data n frm : Nat) (src : Bytes) : Option (Except MemErr Placed) :=
  if frm + src.length > n then none
  else some (m.nvmWrite (m.getRef data + frm) src)

/-- rust/bolos-impl/src/nvm.rs 97-99: `NVM::read` of the same static. -/
def recordRead (m : Placed) (data n : Nat) : Except MemErr Bytes := m.bytes (m.getRef data) n

/-! ### Globals -/

/-- A byte of RAM is written; the image cannot be written like that. -/
def poke (m : Placed) (a : Nat) (b : UInt8) : Except MemErr Placed :=
  if m.inLoad a ∨ m.rest a = none then .error .fault
  else .ok { m with rest := fun x => if x = a then some b else m.rest x }

/-- Bytes of RAM are written. -/
def pokes (m : Placed) (a : Nat) : Bytes → Except MemErr Placed
  | [] => .ok m
  | b :: t => do
    let m ← m.poke a b
    m.pokes (a + 1) t

/-- rust/bolos-derive/src/lazy_static.rs 156-182: `init` of a lazily initialized global with its sentinel and value at
the addresses given, and what its initializer gives. -/
def globalInit (m : Placed) (sentinel val : Nat) (value : Bytes) : Except MemErr Placed := do
  let s := m.getRef sentinel
  let b ← m.byte s
  if b ≠ 1 then do
    let m ← m.pokes (m.intoInner val) value
    m.poke s 1
  else .ok m

/-- rust/bolos-derive/src/lazy_static.rs 185-199: `get`. -/
def globalGet (m : Placed) (sentinel val : Nat) (value : Bytes) : Except MemErr (Placed × Bytes) := do
  let m ← m.globalInit sentinel val value
  let t ← m.bytes (m.intoInner val) value.length
  .ok (m, t)

end Placed

/-! ### `pic_str!` -/

/-- rust/bolos-derive/src/pic_str.rs 26-29: the literal given, a string or a byte string. -/
inductive Literal where
  | str (t : Bytes)
  | bstr (t : Bytes)
  deriving DecidableEq, Repr

/-- rust/bolos-derive/src/pic_str.rs 31-52: `null_terminate`. -/
def Literal.terminate : Literal → Literal
  | .str t => .str (if t.getLast? = some 0 then t else t ++ [0])
  | .bstr t => .bstr (if t.getLast? = some 0 then t else t ++ [0])

/-- The bytes of a literal. -/
def Literal.bytes : Literal → Bytes
  | .str t => t
  | .bstr t => t

/-- rust/bolos-derive/src/pic_str.rs 89-101: the literal in the generated code; `skip` if there was a `!`. -/
def picStr (s : Literal) (skip : Bool) : Literal := if skip then s else s.terminate

/-- The generated code, `PIC::new(..).into_inner()`, with the address of the literal: the reference it gives. A byte
string is a reference to an array: only the address is translated (rust/bolos-sys/src/pic.rs 85-103). -/
def picStrRef (m : Placed) (s : Literal) (skip : Bool) (a : Nat) : Except MemErr Placed.Ref :=
  match picStr s skip with
  | .str t => m.strInner ⟨a, t.length⟩
  | .bstr t => .ok ⟨m.intoInner a, t.length⟩

end Tezos
