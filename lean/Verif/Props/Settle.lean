import Verif.Props.Flash
/-
C16: what is left of the claim where any number of writes to a record fail while the app runs on. Every failing write may
let an old value be read, but the next write that completes, and every restart, put this right.
-/
set_option linter.unusedSimpArgs false
namespace Tezos
open Spec

/-! ### Specification -/

/-- What happens to a record: a write that completes, one that fails with an exception (having written its page or not),
a restart. -/
inductive FailEv where
  | write (v : Bytes)
  | failed (v : Bytes) (written : Bool)
  | relaunch
  deriving DecidableEq

/-- The value that reaches the flash with an event. -/
def FailEv.stores : FailEv → Option Bytes
  | .write v => some v
  | .failed v true => some v
  | _ => none

/-- The last value that reached the flash, from `c` on. -/
def lastStored (c : Option Bytes) : List FailEv → Option Bytes
  | [] => c
  | e :: es => lastStored (e.stores.or c) es

/-- The last event is not a failing write that left its page as it was. -/
def Settled (es : List FailEv) : Prop := ∀ v, es.getLast? ≠ some (.failed v false)

/-! ### The store -/

/-- One event on the store. -/
def failStep (w : Wear) : FailEv → Except WearError Wear
  | .write v => .ok (w.write .done v).1
  | .failed v true => .ok (w.write (.fails (Slot.toPage ((w.idx + 1) % 2 ^ 64) v)) v).1
  | .failed v false => .ok (w.write (.fails (w.pages.getD ((w.idx + 1) % 2 ^ 64 % w.pages.length) [])) v).1
  | .relaunch => Wear.new w.pages

/-- A history of the store. -/
def failRun (w : Wear) : List FailEv → Except WearError Wear
  | [] => .ok w
  | e :: es =>
    match failStep w e with
    | .error x => .error x
    | .ok w => failRun w es

/-- The page index is at or beyond the newest page `k`, and every page in use has a value of `P`. -/
structure Ahead (P : Bytes → Prop) (w : Wear) (k : Nat) (c : Option Bytes) : Prop where
  le : k ≤ w.idx
  inv : ∃ v, StoreInv w.pages k v ∧ c = if k = 0 then none else some v
  from' : ∀ p ∈ w.pages, ∀ s, Slot.ofPage p = some s → s.counter = 0 ∨ P s.payload

theorem StoreInv.setAt {pages : List Bytes} {k j : Nat} {v u : Bytes} (h : StoreInv pages k v) (hj : k < j)
    (hk : j < 2 ^ 64) (hu : u.length = slotSize) :
    StoreInv (pages.set (j % pages.length) (Slot.toPage j u)) j u := by
  have hlt : j % pages.length < pages.length := Nat.mod_lt _ h.pos
  have hdec := Slot.ofPage_toPage hk hu
  refine ⟨by simpa using h.pos, ?_, ?_⟩
  · intro p hp
    rcases List.mem_or_eq_of_mem_set hp with hp | rfl
    · obtain ⟨s, hs, hsk⟩ := h.valid p hp
      exact ⟨s, hs, by omega⟩
    · exact ⟨_, hdec, Nat.le_refl _⟩
  · refine ⟨_, ?_, hdec⟩
    rw [List.length_set, List.getElem?_set_self hlt]

/-- A value that reaches the flash is the newest, and the index points to it. -/
theorem Ahead.put {P : Bytes → Prop} {w : Wear} {k : Nat} {c : Option Bytes} {u : Bytes} (h : Ahead P w k c)
    (hl : w.idx + 1 < 2 ^ 64) (hu : u.length = 52) (hp : P u) :
    Ahead P ⟨w.pages.set ((w.idx + 1) % w.pages.length) (Slot.toPage (w.idx + 1) u), w.idx + 1⟩ (w.idx + 1) (some u) := by
  obtain ⟨hle, ⟨v, hi, rfl⟩, hf⟩ := h
  refine ⟨Nat.le_refl _, ⟨u, hi.setAt (by omega) hl hu, by simp⟩, ?_⟩
  intro p hpm s hs
  rcases List.mem_or_eq_of_mem_set hpm with hpm | rfl
  · exact hf p hpm s hs
  · rw [Slot.ofPage_toPage hl hu] at hs
    cases hs
    exact .inr hp

theorem Ahead.step {P : Bytes → Prop} {w : Wear} {k : Nat} {c : Option Bytes} {e : FailEv} (h : Ahead P w k c)
    (hl : w.idx + 1 < 2 ^ 64) (h52 : ∀ u, e.stores = some u → u.length = 52 ∧ P u) :
    ∃ w' k', failStep w e = .ok w' ∧ w'.idx ≤ w.idx + 1 ∧ Ahead P w' k' (e.stores.or c) ∧
      ((∀ v, e ≠ .failed v false) → w'.idx = k') := by
  have hpos : ¬ w.pages.length = 0 := by obtain ⟨v, hi, -⟩ := h.inv; have := hi.pos; omega
  have hmod : (w.idx + 1) % 2 ^ 64 = w.idx + 1 := Nat.mod_eq_of_lt hl
  cases e with
  | write u =>
    obtain ⟨a, b⟩ := h52 u rfl
    refine ⟨_, w.idx + 1, rfl, ?_, ?_, ?_⟩ <;> simp only [Wear.write, hmod, hpos, if_false]
    · exact Nat.le_refl _
    · exact h.put hl a b
    · exact fun _ => trivial
  | failed u b =>
    cases b with
    | true =>
      obtain ⟨a, b⟩ := h52 u rfl
      refine ⟨_, w.idx + 1, rfl, ?_, ?_, ?_⟩ <;> simp only [Wear.write, hmod, hpos, if_false]
      · exact Nat.le_refl _
      · exact h.put hl a b
      · exact fun _ => trivial
    | false =>
      obtain ⟨hle, hi, hf⟩ := h
      have hlt : (w.idx + 1) % w.pages.length < w.pages.length := Nat.mod_lt _ (by omega)
      refine ⟨_, k, rfl, ?_, ?_, fun hne => absurd rfl (hne u)⟩ <;>
        simp only [Wear.write, hmod, hpos, if_false, List.getD_eq_getElem?_getD, List.getElem?_eq_getElem hlt,
          Option.getD_some, List.set_getElem_self]
      · exact Nat.le_refl _
      · exact ⟨Nat.le_succ_of_le hle, hi, hf⟩
  | relaunch =>
    obtain ⟨hle, ⟨v, hi, rfl⟩, hf⟩ := h
    exact ⟨_, k, hi.new, Nat.le_succ_of_le hle, ⟨Nat.le_refl _, ⟨v, hi, rfl⟩, hf⟩, fun _ => rfl⟩

theorem Ahead.run {P : Bytes → Prop} {es : List FailEv} :
    ∀ {w : Wear} {k : Nat} {c : Option Bytes}, Ahead P w k c → w.idx + es.length < 2 ^ 64 →
      (∀ e ∈ es, ∀ u, e.stores = some u → u.length = 52 ∧ P u) →
      ∃ w' k', failRun w es = .ok w' ∧ Ahead P w' k' (lastStored c es) ∧
        (Settled es → (es = [] → w.idx = k) → w'.idx = k') := by
  induction es with
  | nil => intro w k c h _ _; exact ⟨w, k, rfl, h, fun _ h => h rfl⟩
  | cons e es ih =>
    intro w k c h hl h52
    simp only [List.length_cons] at hl
    obtain ⟨w1, k1, e1, hle, h1, hs1⟩ := h.step (e := e) (by omega) (h52 e List.mem_cons_self)
    obtain ⟨w2, k2, e2, h2, hs2⟩ := ih h1 (by omega) (fun e he => h52 e (List.mem_cons_of_mem _ he))
    refine ⟨w2, k2, by simp only [failRun, e1, e2], h2, fun hs _ => hs2 ?_ ?_⟩
    · intro v hv
      cases es with
      | nil => cases hv
      | cons a l => exact hs v (by rw [List.getLast?_cons_cons]; exact hv)
    · rintro rfl
      exact hs1 fun v hv => hs v (by rw [hv]; rfl)

/-! ### C16 -/

/-- C16 (partial: where the claim holds). In every history of a record in which any number of writes fail with an
exception, each having written its page or not, with restarts in between, the record can be opened at any time and
then gives the last value that reached the flash. The running app reads the same value unless the last thing that
happened is a failing write that did not reach the flash; so one write that completes is enough after any number of
failing ones. What is read in the remaining case is a value written at some time, or that there is none. Missing: in
that case the value may be an old one (`C16_negation`). -/
theorem C16_next_write_partial {n : Nat} (hn : 1 ≤ n) {es : List FailEv}
    (h52 : ∀ e ∈ es, ∀ v, e.stores = some v → v.length = 52) (hlen : es.length < 2 ^ 64) :
    ∃ w0 w, Wear.new (freshPages n) = .ok w0 ∧ failRun w0 es = .ok w ∧
      (∃ w', Wear.new w.pages = .ok w' ∧ w'.read = readOfCell (lastStored none es)) ∧
      (Settled es → w.read = readOfCell (lastStored none es)) ∧
      (w.read = .error .uninitialized ∨ ∃ v, w.read = .ok v ∧ ∃ e ∈ es, e.stores = some v) := by
  have hi := StoreInv.fresh (n := n) (by omega)
  have h0 : Ahead (fun v => ∃ e ∈ es, e.stores = some v) ⟨freshPages n, 0⟩ 0 none := by
    refine ⟨Nat.le_refl _, ⟨_, hi, rfl⟩, ?_⟩
    intro p hp s hs
    simp only [freshPages, List.mem_replicate] at hp
    rw [hp.2, Slot.ofPage_zeroed] at hs
    cases hs
    exact .inl rfl
  obtain ⟨w, k, hw, ⟨hle, ⟨v, hv, hc⟩, hf⟩, hs⟩ := h0.run (es := es) (by simpa using hlen)
    (fun e he u hu => ⟨h52 e he u hu, e, he, hu⟩)
  have hread : Wear.read ⟨w.pages, k⟩ = readOfCell (lastStored none es) := by
    rw [hv.read, hc]
    split <;> rfl
  refine ⟨_, w, hi.new, hw, ⟨_, hv.new, hread⟩, ?_, ?_⟩
  · intro hset
    have := hs hset (fun _ => rfl)
    rw [← hread, ← this]
  · have hlt : w.idx % w.pages.length < w.pages.length := Nat.mod_lt _ hv.pos
    obtain ⟨s, hs, -⟩ := hv.valid _ (List.getElem_mem hlt)
    simp only [Wear.read, List.getElem?_eq_getElem hlt, hs]
    rcases hf _ (List.getElem_mem hlt) s hs with h | ⟨e, he, hu⟩
    · exact .inl (by rw [if_pos h])
    · by_cases h : s.counter = 0
      · exact .inl (by rw [if_pos h])
      · exact .inr ⟨s.payload, by rw [if_neg h], e, he, hu⟩

/-- A case: on two pages, after three writes the fourth fails; the second is read. After another write that
completes, and after a restart, the last value is read. -/
example :
    let v (i : UInt8) := List.replicate 52 i
    let es : List FailEv := [.write (v 1), .write (v 2), .write (v 3), .failed (v 4) false]
    (∀ e ∈ es ++ [.write (v 5)], ∀ u, e.stores = some u → u.length = 52) ∧ Settled (es ++ [.write (v 5)]) ∧
    ((failRun ⟨freshPages 2, 0⟩ es).toOption.bind fun w => w.read.toOption) = some (v 2) ∧
    ((failRun ⟨freshPages 2, 0⟩ (es ++ [.write (v 5)])).toOption.bind fun w => w.read.toOption) = some (v 5) ∧
    ((failRun ⟨freshPages 2, 0⟩ (es ++ [.relaunch])).toOption.bind fun w => w.read.toOption) = some (v 3) := by
  refine ⟨?_, ?_, by decide +kernel, by decide +kernel, by decide +kernel⟩
  · intro e he u hu
    simp only [List.mem_append, List.mem_cons, List.not_mem_nil, or_false] at he
    rcases he with (rfl | rfl | rfl | rfl) | rfl <;> simp only [FailEv.stores, Option.some.injEq, reduceCtorEq] at hu <;>
      (subst hu; rfl)
  · intro v h
    cases h

end Tezos
