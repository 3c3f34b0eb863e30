import Verif.Device
/-
Lazily initialized globals and the initial contents of the flash: the code that the attributes `lazy_static` and `nvm`
generate, and `new_flash_slot!`. `Device.lean` has the records as stores that forget the position found by a read; here
they are as the code has them.
-/
namespace Tezos

/-! ### Globals -/

/-- rust/bolos-derive/src/lazy_static.rs 139-142: the sentinel, and the memory of the value; `none` is memory that was
not initialized. -/
structure LazyCell (α : Type) where
  sentinel : UInt8
  mem : Option α
  deriving DecidableEq, Repr

/-- The globals when the app starts: the operating system clears the memory of the app. -/
def LazyCell.start {α : Type} : LazyCell α := ⟨0, none⟩

/-- What an access gives. `aborts`: the initializer did (`apdu_expect`). `undefined`: memory is read that was not
initialized. -/
inductive Got (α : Type) where
  | value (a : α)
  | aborts
  | undefined
  deriving DecidableEq, Repr

/-- rust/bolos-derive/src/lazy_static.rs 156-183: `init`. `value` is what the initializer gives if it is run now, `none`
if it aborts. -/
def LazyCell.init {α : Type} (value : Option α) (c : LazyCell α) : Option (LazyCell α) :=
  if c.sentinel ≠ 1 then value.map fun v => ⟨1, some v⟩ else some c

/-- rust/bolos-derive/src/lazy_static.rs 185-199 (`get`) and 91-105 (`get_mut`). -/
def LazyCell.get {α : Type} (value : Option α) (c : LazyCell α) : LazyCell α × Got α :=
  match c.init value with
  | none => (c, .aborts)
  | some c =>
    (c, match c.mem with
      | none => .undefined
      | some v => .value v)

/-- Writing through the reference given by `get_mut`. -/
def LazyCell.put {α : Type} (v : α) (c : LazyCell α) : LazyCell α := { c with mem := some v }

/-! ### Flash -/

/-- The loops of rust/bolos/src/flash_slot.rs 100-123 and the inner loop of rust/bolos-derive/src/nvm.rs 200-205: bytes
copied one by one to `offset` and after. -/
def copyAt (offset : Nat) (src out : Bytes) : Bytes :=
  (List.range src.length).foldl (fun out j => out.set (offset + j) (src.getD j 0)) out

/-- rust/bolos/src/flash_slot.rs 94-126: `as_storage`. -/
def asStorage (counter : Nat) (payload : Bytes) (crc : UInt32) : Bytes :=
  copyAt (8 + slotSize) (be32 crc) (copyAt 8 payload (copyAt 0 (beEnc 8 counter) (List.replicate 64 0)))

/-- rust/bolos-derive/src/nvm.rs 189-212: `expand_array`; `none` is a division by zero, an error of the compiler. -/
def expandArray (src : Bytes) (total : Nat) : Option Bytes :=
  if src.length = 0 then none
  else some ((List.range (total / src.length)).foldl (fun out i => copyAt (i * src.length) src out)
    (List.replicate total 0))

/-- rust/bolos/src/flash_slot.rs 160-175: `with_baking`: the memory as pages; `none` is the assertion. -/
def withBaking (slots : Nat) (storage : Bytes) : Option (List Bytes) :=
  if storage.length = 64 * slots then some ((List.range slots).map fun i => slice storage (64 * i) 64) else none

/-- rust/bolos/src/flash_slot.rs 290-307: the pages of `new_flash_slot!` as they are flashed with the app. -/
def newFlashSlot (slots : Nat) : Option (List Bytes) :=
  (expandArray (asStorage 0 (List.replicate slotSize 0) 0x4128908) (slots * 64)).bind (withBaking slots)

/-! ### Records -/

/-- A record of rust/app/src/handlers/hwm.rs 36-43 or rust/app/src/handlers/baking.rs 44-46: the pages in flash, and the
position in a global. -/
structure LStore where
  pages : List Bytes
  cell : LazyCell Nat
  deriving DecidableEq, Repr

/-- An access to the wear leveller. -/
def LStore.open (s : LStore) : LStore × Got Wear :=
  let r := s.cell.get (match Wear.new s.pages with | .ok w => some w.idx | .error _ => none)
  (⟨s.pages, r.1⟩, match r.2 with
    | .value i => .value ⟨s.pages, i⟩
    | .aborts => .aborts
    | .undefined => .undefined)

/-- What is done with a record: reading, writing, starting the app. -/
inductive StoreOp where
  | read
  | write (fate : Fate) (payload : Bytes)
  | relaunch
  deriving DecidableEq, Repr

/-- What comes of it. -/
inductive StoreRes where
  | read (r : ReadRes)
  | wrote (r : WriteRes)
  | relaunched
  | undefined
  deriving DecidableEq, Repr

/-- One use of a record. Losing the power clears the globals. -/
def LStore.step (s : LStore) : StoreOp → LStore × StoreRes
  | .read =>
    match s.open with
    | (s, .aborts) => (s, .read .panic)
    | (s, .undefined) => (s, .undefined)
    | (s, .value w) =>
      (s, .read (match w.read with
        | .ok b => .ok b
        | .error .panic => .panic
        | .error e => .err e))
  | .write fate payload =>
    match s.open with
    | (s, .aborts) => (s, .wrote .panic)
    | (s, .undefined) => (s, .undefined)
    | (s, .value w) =>
      let r := w.write (fate.forWear w payload) payload
      (⟨r.1.pages, if r.2 = .powerLoss then .start else s.cell.put r.1.idx⟩, .wrote r.2)
  | .relaunch => (⟨s.pages, .start⟩, .relaunched)

/-- A history of a record. -/
def LStore.run (s : LStore) : List StoreOp → LStore × List StoreRes
  | [] => (s, [])
  | op :: ops =>
    let r := s.step op
    let rest := r.1.run ops
    (rest.1, r.2 :: rest.2)

end Tezos
