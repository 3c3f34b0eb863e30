import Verif.Lazy
import Verif.Props.Flash
/-
C93: lazily initialized globals, and records opened when first used.
-/
namespace Spec
open Tezos

/-- A variable used for a while: at each use its value is seen, and then changed. The values seen. -/
def values {α : Type} (v : α) : List (α → α) → List α
  | [] => []
  | f :: fs => v :: values (f v) fs

/-- A record that is opened when the app starts: the pages, and the position, `none` if it cannot be opened. -/
structure Opened where
  pages : List Bytes
  idx : Option Nat

def Opened.start (pages : List Bytes) : Opened :=
  ⟨pages, match Wear.new pages with | .ok w => some w.idx | .error _ => none⟩

/-- One use of it. -/
def Opened.step (s : Opened) : StoreOp → Opened × StoreRes
  | .relaunch => (.start s.pages, .relaunched)
  | .read =>
    (s, .read (match s.idx with
      | none => .panic
      | some i =>
        match Wear.read ⟨s.pages, i⟩ with
        | .ok b => .ok b
        | .error .panic => .panic
        | .error e => .err e))
  | .write fate payload =>
    match s.idx with
    | none => (s, .wrote .panic)
    | some i =>
      let r := Wear.write (fate.forWear ⟨s.pages, i⟩ payload) payload ⟨s.pages, i⟩
      (if r.2 = .powerLoss then .start r.1.pages else ⟨r.1.pages, some r.1.idx⟩, .wrote r.2)

def Opened.run (s : Opened) : List StoreOp → List StoreRes
  | [] => []
  | op :: ops => (s.step op).2 :: (s.step op).1.run ops

end Spec

namespace Tezos
open Spec

/-! ### Globals -/

/-- Uses of a global: each with what its initializer would give at that time, and a change of the value. -/
def LazyCell.uses {α : Type} (c : LazyCell α) : List (Option α × (α → α)) → List (Got α)
  | [] => []
  | (value, f) :: us =>
    match c.get value with
    | (c, .value v) => .value v :: (c.put (f v)).uses us
    | (c, o) => o :: c.uses us

theorem LazyCell.uses_initialized {α : Type} (us : List (Option α × (α → α))) (v : α) :
    LazyCell.uses ⟨1, some v⟩ us = (values v (us.map Prod.snd)).map .value := by
  induction us generalizing v with
  | nil => rfl
  | cons u us ih =>
    obtain ⟨value, f⟩ := u
    simp only [LazyCell.uses, LazyCell.get, LazyCell.init, ne_eq, not_true_eq_false, if_false, LazyCell.put, List.map_cons,
      values]
    exact congrArg _ (ih (f v))

/-- C93: a lazily initialized global is a variable with the value its initializer gives at the first use that does not
abort: every later use sees the value as the uses before left it, whatever the initializer would give by then. Memory that
was not initialized is never read. -/
theorem C93_first_value {α : Type} (aborted us : List (Option α × (α → α))) (ha : ∀ u ∈ aborted, u.1 = none) (v : α)
    (f : α → α) :
    LazyCell.uses .start (aborted ++ (some v, f) :: us) =
      aborted.map (fun _ => .aborts) ++ (values v (f :: us.map Prod.snd)).map .value := by
  induction aborted with
  | nil =>
    simp only [List.nil_append, List.map_nil, LazyCell.uses, LazyCell.get, LazyCell.init, LazyCell.start, LazyCell.put,
      values, List.map_cons]
    exact congrArg _ (LazyCell.uses_initialized us (f v))
  | cons u aborted ih =>
    obtain ⟨value, g⟩ := u
    have hv : value = none := ha (value, g) (List.mem_cons_self ..)
    subst hv
    simp only [List.cons_append, List.map_cons]
    rw [← ih fun u hu => ha u (List.mem_cons_of_mem _ hu)]
    rfl

/-- The third use sees what the first two made of the value of the first initializer. -/
example : LazyCell.uses (α := Nat) .start [(none, id), (some 5, (· + 1)), (some 9, (· * 2)), (none, id)] =
    [.aborts, .value 5, .value 6, .value 12] := by decide

/-! ### Flash -/

theorem foldl_set (offset : Nat) (src : Bytes) (out : Bytes) (h : offset + src.length ≤ out.length) (k : Nat)
    (hk : k ≤ src.length) :
    (List.range k).foldl (fun out j => out.set (offset + j) (src.getD j 0)) out =
      out.take offset ++ src.take k ++ out.drop (offset + k) := by
  induction k with
  | zero => simp
  | succ k ih =>
    rw [List.range_succ, List.foldl_append, ih (by omega)]
    have hk' : k < src.length := by omega
    have ho : offset + k < out.length := by omega
    have h1 : (out.take offset ++ src.take k).length = offset + k := by
      simp only [List.length_append, List.length_take]
      omega
    simp only [List.foldl_cons, List.foldl_nil]
    rw [List.set_append_right _ _ (by omega), h1, Nat.sub_self, List.drop_eq_getElem_cons ho, List.set_cons_zero,
      ← List.take_append_getElem hk']
    simp only [List.getD, List.getElem?_eq_getElem hk', Option.getD_some, List.append_assoc, List.cons_append,
      List.nil_append, Nat.add_assoc]

theorem copyAt_eq (offset : Nat) (src out : Bytes) (h : offset + src.length ≤ out.length) :
    copyAt offset src out = out.take offset ++ src ++ out.drop (offset + src.length) := by
  unfold copyAt
  rw [foldl_set offset src out h _ (Nat.le_refl _), List.take_length]

theorem copyAt_append (offset : Nat) (src pre rest : Bytes) (ho : pre.length = offset) (h : src.length ≤ rest.length) :
    copyAt offset src (pre ++ rest) = pre ++ src ++ rest.drop src.length := by
  subst ho
  rw [copyAt_eq _ _ _ (by simp only [List.length_append]; omega)]
  simp

theorem asStorage_eq (counter : Nat) (payload : Bytes) (hp : payload.length = slotSize) (crc : UInt32) :
    asStorage counter payload crc = beEnc 8 counter ++ payload ++ be32 crc := by
  have hs : slotSize = 52 := rfl
  have h8 : (beEnc 8 counter).length = 8 := by simp
  have h4 : (be32 crc).length = 4 := by simp [be32]
  unfold asStorage
  rw [show List.replicate 64 (0 : UInt8) = [] ++ List.replicate 64 0 from rfl, copyAt_append 0 _ [] _ rfl (by simp), h8,
    List.nil_append, List.drop_replicate, copyAt_append _ _ _ _ h8 (by simp [hp, hs]), hp, List.drop_replicate,
    copyAt_append _ _ _ _ (by simp [hp]) (by simp [hs, h4]), h4, List.drop_replicate, hs]
  simp

theorem expand_fold (src : Bytes) (n : Nat) (k : Nat) (hk : k ≤ n) :
    (List.range k).foldl (fun out i => copyAt (i * src.length) src out) (List.replicate (n * src.length) 0) =
      (List.replicate k src).flatten ++ List.replicate ((n - k) * src.length) 0 := by
  induction k with
  | zero => simp
  | succ k ih =>
    rw [List.range_succ, List.foldl_append, ih (by omega)]
    simp only [List.foldl_cons, List.foldl_nil]
    have hm : (n - k) * src.length = src.length + (n - (k + 1)) * src.length := by
      rw [show n - k = (n - (k + 1)) + 1 by omega, Nat.succ_mul]
      omega
    have hl : (List.replicate k src).flatten.length = k * src.length := by simp
    rw [copyAt_append _ _ _ _ hl (by simp only [List.length_replicate, hm]; omega), List.drop_replicate, hm,
      Nat.add_sub_cancel_left, List.replicate_succ', List.flatten_append]
    simp

theorem expandArray_eq (src : Bytes) (hs : src ≠ []) (n : Nat) :
    expandArray src (n * src.length) = some (List.replicate n src).flatten := by
  have h0 : src.length ≠ 0 := by simpa using hs
  unfold expandArray
  rw [if_neg h0, Nat.mul_div_cancel _ (by omega), expand_fold src n n (Nat.le_refl _)]
  simp

/-- The pages made of the flash. -/
theorem withBaking_flatten (n : Nat) (page : Bytes) (hp : page.length = 64) :
    withBaking n (List.replicate n page).flatten = some (List.replicate n page) := by
  unfold withBaking
  rw [if_pos (by simp [hp, Nat.mul_comm])]
  refine congrArg some (List.ext_getElem (by simp) fun i h1 h2 => ?_)
  have hi : i < n := by simpa using h2
  simp only [List.getElem_map, List.getElem_range, List.getElem_replicate]
  rw [show n = i + ((n - i - 1) + 1) by omega, ← List.replicate_append_replicate, List.replicate_succ, List.flatten_append,
    List.flatten_cons]
  have hl : (List.replicate i page).flatten.length = 64 * i := by simp [hp, Nat.mul_comm]
  unfold slice
  rw [List.drop_append, hl, List.drop_eq_nil_of_le (by omega), Nat.sub_self, List.drop_zero, List.nil_append, ← hp,
    List.take_left']
  rfl

/-- C93, as flashed: a record of any number of pages starts as that many pages with counter 0 and 52 zero bytes, each with
a valid checksum; it can be opened, and reads as not initialized. -/
theorem C93_factory (n : Nat) (hn : 0 < n) :
    ∃ pages, newFlashSlot n = some pages ∧ pages.length = n ∧
      (∀ p ∈ pages, p = List.replicate 60 0 ++ [0x04, 0x12, 0x89, 0x08] ∧
        Slot.ofPage p = some ⟨0, List.replicate 52 0⟩) ∧
      Wear.new pages = .ok ⟨pages, 0⟩ ∧ Wear.read ⟨pages, 0⟩ = .error .uninitialized ∧ pages = freshPages n := by
  have hz : asStorage 0 (List.replicate slotSize 0) 0x4128908 = zeroedPage := asStorage_eq _ _ (by simp) _
  have hl : zeroedPage.length = 64 := by decide
  refine ⟨freshPages n, ?_, by simp [freshPages], ?_, ?_, ?_, rfl⟩
  · unfold newFlashSlot
    rw [hz, show n * 64 = n * zeroedPage.length by rw [hl], expandArray_eq _ (by intro h; simp [h] at hl) n]
    exact withBaking_flatten n _ hl
  · intro p hp
    rw [List.eq_of_mem_replicate hp]
    exact ⟨by decide, Slot.ofPage_zeroed⟩
  · exact (StoreInv.fresh hn).new
  · have := (StoreInv.fresh hn).read
    simpa using this

/-! ### Records -/

/-- The position in the global is that of a record opened at the start, if it was used at all. -/
def LStore.Follows (s : LStore) (o : Opened) : Prop :=
  s.pages = o.pages ∧
    ((∃ i, s.cell = ⟨1, some i⟩ ∧ o.idx = some i) ∨ (s.cell = .start ∧ o.idx = (Opened.start o.pages).idx))

theorem LStore.Follows.open {s : LStore} {o : Opened} (h : s.Follows o) :
    (match o.idx with
      | none => s.open = (s, .aborts)
      | some i => s.open = (⟨s.pages, ⟨1, some i⟩⟩, .value ⟨s.pages, i⟩)) := by
  obtain ⟨pages, cell⟩ := s
  obtain ⟨hp, ⟨i, hc, hi⟩ | ⟨hc, hi⟩⟩ := h <;> dsimp only at hp hc <;> subst hc hp
  · rw [hi]
    rfl
  · rw [hi]
    unfold LStore.open Opened.start
    cases hw : Wear.new o.pages <;> rfl

theorem LStore.Follows.step {s : LStore} {o : Opened} (h : s.Follows o) (op : StoreOp) :
    (s.step op).1.Follows (o.step op).1 ∧ (s.step op).2 = (o.step op).2 := by
  have ho := h.open
  have hp := h.1
  obtain ⟨pages, idx⟩ := o
  dsimp only at hp
  cases op with
  | relaunch => exact ⟨⟨hp, .inr ⟨rfl, by rw [Opened.step]; rfl⟩⟩, rfl⟩
  | read =>
    cases idx with
    | none =>
      dsimp only at ho
      simp only [LStore.step, Opened.step, ho]
      exact ⟨h, trivial⟩
    | some i =>
      dsimp only at ho
      simp only [LStore.step, Opened.step, ho, hp]
      exact ⟨⟨rfl, .inl ⟨i, rfl, rfl⟩⟩, rfl⟩
  | write fate payload =>
    cases idx with
    | none =>
      dsimp only at ho
      simp only [LStore.step, Opened.step, ho]
      exact ⟨h, trivial⟩
    | some i =>
      dsimp only at ho
      simp only [LStore.step, Opened.step, ho, hp]
      refine ⟨?_, trivial⟩
      split
      · exact ⟨rfl, .inr ⟨rfl, rfl⟩⟩
      · exact ⟨rfl, .inl ⟨_, rfl, rfl⟩⟩

/-- C93: a record that is opened when it is first used behaves as one that is opened when the app starts: along every
history of reads, writes (completed, failed or cut by a loss of power) and restarts, all results are the same. -/
theorem C93_as_opened_at_start (pages : List Bytes) (ops : List StoreOp) :
    (LStore.run ⟨pages, .start⟩ ops).2 = (Opened.start pages).run ops := by
  have key : ∀ (ops : List StoreOp) (s : LStore) (o : Opened), s.Follows o → (s.run ops).2 = o.run ops := by
    intro ops
    induction ops with
    | nil => intros; rfl
    | cons op ops ih =>
      intro s o h
      have hs := h.step op
      simp only [LStore.run, Opened.run, hs.2, ih _ _ hs.1]
  exact key ops _ _ ⟨rfl, .inr ⟨rfl, rfl⟩⟩

/-! ### The records of the device model -/

/-- One use of a record as `Device.lean` has it. -/
def Store.step (s : Store) : StoreOp → Store × StoreRes
  | .read => (s, .read s.read)
  | .write fate payload => ((s.write fate payload).1, .wrote (s.write fate payload).2)
  | .relaunch => (s.relaunch, .relaunched)

def Store.run (s : Store) : List StoreOp → List StoreRes
  | [] => []
  | op :: ops => (s.step op).2 :: (s.step op).1.run ops

/-- The position that the next use has is that of a record opened at the start. -/
def Store.Follows (s : Store) (o : Opened) : Prop :=
  s.pages = o.pages ∧ (match s.wear with | .ok w => some w.idx | .error _ => none) = o.idx

theorem Store.wear_pages {s : Store} {w : Wear} (h : s.wear = .ok w) : w.pages = s.pages := by
  unfold Store.wear Wear.new at h
  split at h
  · cases h
    rfl
  · split at h
    · cases h
    · cases h
      rfl

theorem Store.Follows.step {s : Store} {o : Opened} (h : s.Follows o) (op : StoreOp) :
    (s.step op).1.Follows (o.step op).1 ∧ (s.step op).2 = (o.step op).2 := by
  obtain ⟨pages, idx⟩ := o
  obtain ⟨hp, hi⟩ := h
  dsimp only at hp hi
  cases op with
  | relaunch => exact ⟨⟨hp, by rw [← hp]; rfl⟩, rfl⟩
  | read =>
    refine ⟨⟨hp, hi⟩, ?_⟩
    simp only [Store.step, Opened.step, Store.read]
    cases hw : s.wear with
    | error e =>
      rw [hw] at hi
      subst hi
      rfl
    | ok w =>
      rw [hw] at hi
      subst hi
      have hwp := Store.wear_pages hw
      rw [← hp, ← hwp]
      rfl
  | write fate payload =>
    simp only [Store.step, Opened.step, Store.write]
    cases hw : s.wear with
    | error e =>
      rw [hw] at hi
      subst hi
      exact ⟨⟨hp, by rw [hw]⟩, rfl⟩
    | ok w =>
      rw [hw] at hi
      subst hi
      have hwp := Store.wear_pages hw
      rw [← hp, ← hwp]
      dsimp only
      refine ⟨?_, rfl⟩
      split
      · exact ⟨rfl, rfl⟩
      · exact ⟨rfl, rfl⟩

/-- C93: the records of the device model give the same results as the code's. -/
theorem C93_device_records (pages : List Bytes) (ops : List StoreOp) :
    (LStore.run ⟨pages, .start⟩ ops).2 = Store.run ⟨pages, none⟩ ops := by
  have key : ∀ (ops : List StoreOp) (s : Store) (o : Opened), s.Follows o → s.run ops = o.run ops := by
    intro ops
    induction ops with
    | nil => intros; rfl
    | cons op ops ih =>
      intro s o h
      have hs := h.step op
      simp only [Store.run, Opened.run, hs.2, ih _ _ hs.1]
  rw [C93_as_opened_at_start]
  exact (key ops _ _ ⟨rfl, rfl⟩).symm

/-- A record of two pages: nothing yet, a write, a read, a failed write, a restart, a read. -/
example : (LStore.run ⟨freshPages 2, .start⟩ [.read, .write .done (List.replicate 52 7), .read,
      .write (.fails .unchanged) (List.replicate 52 8), .read, .relaunch, .read]).2 =
    [.read (.err .uninitialized), .wrote .ok, .read (.ok (List.replicate 52 7)), .wrote .err,
      .read (.err .uninitialized), .relaunched, .read (.ok (List.replicate 52 7))] := by
  decide +kernel

/-- A record that cannot be opened aborts every use. -/
example : (LStore.run ⟨[List.replicate 64 1], .start⟩ [.read, .write .done (List.replicate 52 7), .relaunch, .read]).2 =
    [.read .panic, .wrote .panic, .relaunched, .read .panic] := by
  decide +kernel

end Tezos
