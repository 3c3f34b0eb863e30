import Verif.Codes
import Verif.Flash
/-
Chunked upload: rust/app/src/handlers/lock.rs, rust/bolos/src/swapping_buffer.rs,
rust/app/src/utils/buffer_upload.rs, rust/app/src/handlers/mod.rs 40-55.
-/
namespace Tezos

/-- `mem[off..off+bs.len()].copy_from_slice(bs)`. -/
def overwrite (mem : Bytes) (off : Nat) (bs : Bytes) : Bytes :=
  mem.take off ++ bs ++ mem.drop (off + bs.length)

/-- rust/bolos/src/swapping_buffer.rs 22-26, 60-64: `SwappingBuffer`. The RAM and FLASH sizes are the
lengths of the two memories; `inFlash`/`cnt` is `BufferState`. -/
structure SwapBuf where
  ram : Bytes
  flash : Bytes
  inFlash : Bool
  cnt : Nat
  deriving DecidableEq, Repr

/-- rust/bolos/src/swapping_buffer.rs 85-90: `read_exact`. -/
def SwapBuf.readExact (b : SwapBuf) : Bytes :=
  if b.inFlash then b.flash.take b.cnt else b.ram.take b.cnt

/-- rust/bolos/src/swapping_buffer.rs 142-144: `reset` (contents are kept). -/
def SwapBuf.reset (b : SwapBuf) : SwapBuf := { b with inFlash := false, cnt := 0 }

/-- rust/bolos/src/swapping_buffer.rs 123-134: the two `WritingToFlash` arms of `write`. A failing NVM
write leaves arbitrary bytes in the target range. -/
def SwapBuf.writeFlash (fate : WriteFate) (bs : Bytes) (b : SwapBuf) : SwapBuf × WriteRes :=
  if b.cnt + bs.length > b.flash.length then (b, .err) else
  match fate with
  | .done => ({ b with flash := overwrite b.flash b.cnt bs, cnt := b.cnt + bs.length }, .ok)
  | .fails junk => ({ b with flash := overwrite b.flash b.cnt (junk.take bs.length) }, .err)
  | .powerLoss junk => ({ b with flash := overwrite b.flash b.cnt (junk.take bs.length) }, .powerLoss)

/-- rust/bolos/src/swapping_buffer.rs 102-136: `write`. `fc` is the fate of copying RAM to flash, `fa`
the fate of appending to flash. -/
def SwapBuf.write (fc fa : WriteFate) (bs : Bytes) (b : SwapBuf) : SwapBuf × WriteRes :=
  if b.inFlash then b.writeFlash fa bs
  else if b.cnt + bs.length > b.ram.length then
    if b.ram.length > b.flash.length then (b, .err) else
    match fc with
    | .done => { b with flash := overwrite b.flash 0 b.ram, inFlash := true }.writeFlash fa bs
    | .fails junk => ({ b with flash := overwrite b.flash 0 (junk.take b.ram.length) }, .err)
    | .powerLoss junk => ({ b with flash := overwrite b.flash 0 (junk.take b.ram.length) }, .powerLoss)
  else ({ b with ram := overwrite b.ram b.cnt bs, cnt := b.cnt + bs.length }, .ok)

/-- rust/app/src/handlers/mod.rs 44-55: `BUFFERAccessors`. Three of them are for the development build only. -/
inductive Accessor where
  | sign | baking
  | sha256 | blindSign | debug
  deriving DecidableEq, Repr

/-- rust/app/src/handlers/lock.rs 24-28: `LockError`. -/
inductive LockError where
  | busy | notLocked | badId
  deriving DecidableEq, Repr

/-- rust/app/src/handlers/lock.rs 74-81: `From<LockError> for ApduError`. -/
def LockError.toApdu : LockError → ApduError
  | .notLocked => .executionError
  | .busy => .busy
  | .badId => .busy

/-- rust/app/src/handlers/lock.rs 38-48: `lock` always succeeds, taking the lock over. -/
def lockLock (_cur : Option Accessor) (a : Accessor) : Option Accessor := some a

/-- rust/app/src/handlers/lock.rs 51-58: `acquire`. -/
def lockAcquire (cur : Option Accessor) (a : Accessor) : Except LockError Unit :=
  match cur with
  | some b => if b = a then .ok () else .error .busy
  | none => .error .notLocked

/-- rust/app/src/handlers/lock.rs 61-71: `release`. -/
def lockRelease (cur : Option Accessor) (a : Accessor) : Option Accessor :=
  match cur with
  | some b => if b = a then none else cur
  | none => none

/-- The global upload state: `BUFFER` (rust/app/src/handlers/mod.rs 40-42) and `INIT_LEN`
(rust/app/src/utils/buffer_upload.rs 29-30). -/
structure Upl where
  lock : Option Accessor
  buf : SwapBuf
  initLen : Nat
  deriving DecidableEq, Repr

/-- A `&'static [u8]` into the upload memory. It stays valid for the borrow checker after the buffer is
reset and reused, so what it denotes is looked up in the current memory. -/
structure MemRef where
  inFlash : Bool
  off : Nat
  len : Nat
  deriving DecidableEq, Repr

/-- Dereference. -/
def MemRef.get (r : MemRef) (b : SwapBuf) : Bytes :=
  slice (if r.inFlash then b.flash else b.ram) r.off r.len

/-- Result of `Uploader::upload`: `Ok(None)`, `Ok(Some(..))` (with the reference behind `data`), or an
error; plus abort and power loss. -/
inductive UplRes where
  | more
  | complete (p2 : UInt8) (first data : Bytes) (ref : MemRef)
  | err (e : ApduError)
  | panic
  | powerLoss
  deriving DecidableEq, Repr

/-- The common tail of the three arms: turn the result of a buffer write into an outcome
(`UploaderError::Nvm` becomes `DataInvalid`, rust/app/src/utils/buffer_upload.rs 62-72). -/
def UplRes.ofWrite : WriteRes → Option UplRes
  | .ok => none
  | .err => some (.err .dataInvalid)
  | .powerLoss => some .powerLoss
  | .panic => some .panic

/-- rust/app/src/utils/buffer_upload.rs 104-151: `Uploader::upload`. `payload` is the result of
`buffer.payload()` (`none` for `Err`). The first write of an `Init` packet always goes to RAM. -/
def Upl.upload (fc fa : WriteFate) (acc : Accessor) (p1 p2 : UInt8) (payload : Option Bytes) (u : Upl) :
    Upl × UplRes :=
  match PacketType.tryEither p1 with
  | none => (u, .err .invalidP1P2)
  | some t =>
    if t.isInit then
      let u := { u with lock := lockLock u.lock acc }
      let (b, r) := u.buf.reset.write fc fa [p2]
      let u := { u with buf := b }
      match UplRes.ofWrite r with
      | some e => (u, e)
      | none =>
        match payload with
        | none => (u, .more)
        | some pl =>
          let u := { u with initLen := pl.length }
          let (b, r) := u.buf.write fc fa pl
          let u := { u with buf := b }
          match UplRes.ofWrite r with
          | some e => (u, e)
          | none => (u, .more)
    else if t.isNext then
      match lockAcquire u.lock acc with
      | .error e => (u, .err e.toApdu)
      | .ok _ =>
        match payload with
        | none => (u, .more)
        | some pl =>
          let (b, r) := u.buf.write fc fa pl
          let u := { u with buf := b }
          match UplRes.ofWrite r with
          | some e => (u, e)
          | none => (u, .more)
    else if t.isLast then
      match lockAcquire u.lock acc with
      | .error e => (u, .err e.toApdu)
      | .ok _ =>
        let (b, r) := match payload with
          | none => (u.buf, WriteRes.ok)
          | some pl => u.buf.write fc fa pl
        let u := { u with buf := b }
        match UplRes.ofWrite r with
        | some e => (u, e)
        | none =>
          match u.buf.readExact with
          | [] => (u, .panic)  -- `data[1..]`
          | d0 :: tail =>
            if u.initLen ≤ tail.length then
              (u, .complete d0 (tail.take u.initLen) (tail.drop u.initLen)
                ⟨u.buf.inFlash, 1 + u.initLen, tail.length - u.initLen⟩)
            else (u, .panic)  -- `split_at`
    else (u, .err .invalidP1P2)

/-- rust/app/src/utils/buffer_upload.rs 81-94: `Drop for UploaderOutput`, run when the handler that
received the complete upload returns (with success or error). -/
def Upl.drop (acc : Accessor) (u : Upl) : Upl :=
  match lockAcquire u.lock acc with
  | .ok _ => { u with buf := u.buf.reset, lock := lockRelease u.lock acc }
  | .error _ => u

/-- The upload state at app start: rust/app/src/handlers/mod.rs 40-42 (`new_swapping_buffer!(0xFF, 0x1FFF)`), with the
given flash contents (flash is not cleared at start). -/
def Upl.init (flash : Bytes) : Upl :=
  { lock := none
    buf := { ram := List.replicate 0xFF 0, flash := flash, inFlash := false, cnt := 0 }
    initLen := 0 }

/-! ### Lemmas -/

theorem overwrite_length {mem bs : Bytes} {off : Nat} (h : off + bs.length ≤ mem.length) :
    (overwrite mem off bs).length = mem.length := by
  simp [overwrite]; omega

theorem overwrite_take {mem bs : Bytes} {off n : Nat} (h : n ≤ off) (h2 : off ≤ mem.length) :
    (overwrite mem off bs).take n = mem.take n := by
  unfold overwrite
  rw [List.append_assoc, List.take_append_of_le_length (by simp; omega), List.take_take]
  congr 1; omega

theorem overwrite_take_append {mem bs : Bytes} {off : Nat} (h : off + bs.length ≤ mem.length) :
    (overwrite mem off bs).take (off + bs.length) = mem.take off ++ bs := by
  unfold overwrite
  rw [List.take_append_of_le_length (by simp; omega), List.take_of_length_le (by simp; omega)]

theorem overwrite_zero_take {mem bs : Bytes} {n : Nat} (h : n ≤ bs.length) :
    (overwrite mem 0 bs).take n = bs.take n := by
  unfold overwrite
  simp only [List.take_zero, List.nil_append]
  rw [List.take_append_of_le_length h]

/-- The size invariant of the swapping buffer. -/
structure SwapBuf.WF (b : SwapBuf) : Prop where
  sizes : b.ram.length ≤ b.flash.length
  bound : b.cnt ≤ if b.inFlash then b.flash.length else b.ram.length

theorem SwapBuf.WF.readExact_length {b : SwapBuf} (h : b.WF) : b.readExact.length = b.cnt := by
  have := h.bound
  unfold SwapBuf.readExact
  split
  · rename_i hf; simp only [hf, if_true] at this; simp; omega
  · rename_i hf; simp only [hf] at this; simp at this; simp; omega

theorem SwapBuf.WF.reset {b : SwapBuf} (h : b.WF) : b.reset.WF :=
  ⟨h.sizes, by simp [SwapBuf.reset]⟩

@[simp] theorem SwapBuf.reset_readExact (b : SwapBuf) : b.reset.readExact = [] := by
  simp [SwapBuf.reset, SwapBuf.readExact]

/-- What a buffer write does, abstractly: on success the contents grow by exactly the bytes, otherwise
they are unchanged; it only succeeds if the result fits; sizes never change. -/
structure SwapBuf.WriteSpec (b b' : SwapBuf) (bs : Bytes) (r : WriteRes) : Prop where
  wf : b'.WF
  ramLen : b'.ram.length = b.ram.length
  flashLen : b'.flash.length = b.flash.length
  noPanic : r ≠ .panic
  ok : r = .ok → b'.readExact = b.readExact ++ bs ∧ b.cnt + bs.length ≤ b.flash.length
  notOk : r ≠ .ok → b'.readExact = b.readExact

theorem SwapBuf.writeFlash_spec {b : SwapBuf} (hb : b.WF) (hf : b.inFlash = true) (fate : WriteFate)
    (bs : Bytes) : WriteSpec b (b.writeFlash fate bs).1 bs (b.writeFlash fate bs).2 := by
  have hbd := hb.bound
  have hsz := hb.sizes
  simp only [hf, if_true] at hbd
  unfold SwapBuf.writeFlash
  split
  · exact ⟨hb, rfl, rfl, by simp, by simp, by simp⟩
  · rename_i hfit
    have hj : ∀ junk : Bytes, (overwrite b.flash b.cnt (junk.take bs.length)).length = b.flash.length :=
      fun junk => overwrite_length (by simp; omega)
    have hw : (overwrite b.flash b.cnt bs).length = b.flash.length := overwrite_length (by omega)
    cases fate with
    | done =>
      refine ⟨⟨?_, ?_⟩, rfl, hw, by simp, ?_, by simp⟩
      · simp [hw]; omega
      · simp [hf, hw]; omega
      · intro _
        refine ⟨?_, by omega⟩
        simp only [SwapBuf.readExact, hf, if_true]
        exact overwrite_take_append (by omega)
    | fails junk =>
      refine ⟨⟨?_, ?_⟩, rfl, hj junk, by simp, by simp, ?_⟩
      · simp [hj]; omega
      · simp [hf, hj]; omega
      · intro _
        simp only [SwapBuf.readExact, hf, if_true]
        exact overwrite_take (Nat.le_refl _) hbd
    | powerLoss junk =>
      refine ⟨⟨?_, ?_⟩, rfl, hj junk, by simp, by simp, ?_⟩
      · simp [hj]; omega
      · simp [hf, hj]; omega
      · intro _
        simp only [SwapBuf.readExact, hf, if_true]
        exact overwrite_take (Nat.le_refl _) hbd

theorem SwapBuf.write_spec {b : SwapBuf} (hb : b.WF) (fc fa : WriteFate) (bs : Bytes) :
    WriteSpec b (b.write fc fa bs).1 bs (b.write fc fa bs).2 := by
  have hbd := hb.bound
  have hsz := hb.sizes
  unfold SwapBuf.write
  split
  · rename_i hf
    exact SwapBuf.writeFlash_spec hb hf fa bs
  · rename_i hf
    simp only [Bool.not_eq_true] at hf
    simp only [hf] at hbd
    simp only [Bool.false_eq_true, if_false] at hbd
    split
    · rename_i hov
      rw [if_neg (by omega)]
      have hj : ∀ junk : Bytes,
          (overwrite b.flash 0 (junk.take b.ram.length)).length = b.flash.length :=
        fun junk => overwrite_length (by simp; omega)
      have hw : (overwrite b.flash 0 b.ram).length = b.flash.length := overwrite_length (by omega)
      cases fc with
      | done =>
        simp only
        have hb' : SwapBuf.WF { b with flash := overwrite b.flash 0 b.ram, inFlash := true } := by
          refine ⟨?_, ?_⟩
          · simp [hw]; omega
          · simp [hw]; omega
        have hsp := SwapBuf.writeFlash_spec hb' rfl fa bs
        have hre : SwapBuf.readExact { b with flash := overwrite b.flash 0 b.ram, inFlash := true }
            = b.readExact := by
          simp only [SwapBuf.readExact, hf, if_true]
          simp only [Bool.false_eq_true, if_false]
          exact overwrite_zero_take hbd
        refine ⟨hsp.wf, hsp.ramLen, by rw [hsp.flashLen]; exact hw, hsp.noPanic, ?_, ?_⟩
        · intro h
          have := hsp.ok h
          rw [hre] at this
          refine ⟨this.1, ?_⟩
          have h2 := this.2
          simp only [hw] at h2
          exact h2
        · intro h
          rw [hsp.notOk h, hre]
      | fails junk =>
        refine ⟨⟨?_, ?_⟩, rfl, hj junk, by simp, by simp, ?_⟩
        · simp [hj]; omega
        · simp [hf]; omega
        · intro _
          simp [SwapBuf.readExact, hf]
      | powerLoss junk =>
        refine ⟨⟨?_, ?_⟩, rfl, hj junk, by simp, by simp, ?_⟩
        · simp [hj]; omega
        · simp [hf]; omega
        · intro _
          simp [SwapBuf.readExact, hf]
    · rename_i hfit
      have hw : (overwrite b.ram b.cnt bs).length = b.ram.length := overwrite_length (by omega)
      refine ⟨⟨?_, ?_⟩, hw, rfl, by simp, ?_, by simp⟩
      · simp [hw]; omega
      · simp [hf, hw]; omega
      · intro _
        refine ⟨?_, by omega⟩
        simp only [SwapBuf.readExact, hf, Bool.false_eq_true, if_false]
        exact overwrite_take_append (by omega)

end Tezos
