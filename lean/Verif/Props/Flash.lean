import Verif.Flash
import Verif.Nom
import Verif.Spec.Store
/-
C16-C20: wear-levelled flash storage.
-/
namespace Tezos
open Spec

/-- Running the modelled store through a history: completed writes, relaunches (`Wear::new` on the pages
found in flash) and interrupted writes followed by a relaunch. -/
def storeStep (w : Wear) : StoreEv → Except WearError Wear
  | .write v => .ok (w.write .done v).1
  | .relaunch => Wear.new w.pages
  | .interrupted v t =>
    let idx := (w.idx + 1) % 2 ^ 64
    let page := match t with
      | .old => w.pages.getD (idx % w.pages.length) []
      | .new => Slot.toPage idx v
      | .garbage g => g
    Wear.new (w.write (.powerLoss page) v).1.pages

def storeRun (w : Wear) : List StoreEv → Except WearError Wear
  | [] => .ok w
  | e :: es => storeStep w e >>= fun w => storeRun w es

/-- Two numbers less than `n` apart differ modulo `n`. -/
theorem mod_ne_of_lt {a b n : Nat} (h1 : a < b) (h2 : b - a < n) : b % n ≠ a % n := by
  intro h
  have h3 := Nat.sub_mod_eq_zero_of_mod_eq h
  rw [Nat.mod_eq_of_lt h2] at h3
  omega

/-- A history the device can have: payloads of 52 bytes, and garbage pages that fail their checksum. -/
def StoreEv.admissible : StoreEv → Prop
  | .write v => v.length = slotSize
  | .relaunch => True
  | .interrupted v t => v.length = slotSize ∧ ∀ g, t = .garbage g → Slot.ofPage g = none

/-- The value of the cell in the terms of `Wear::read`. -/
def readOfCell : Option Bytes → Except WearError Bytes
  | none => .error .uninitialized
  | some v => .ok v

/-- The refinement invariant: after `k` completed writes the store represents cell `c`. -/
def Refines (w : Wear) (k : Nat) (c : Option Bytes) : Prop :=
  w.idx = k ∧ ∃ v, StoreInv w.pages k v ∧ c = if k = 0 then none else some v

theorem Refines.read {w : Wear} {k : Nat} {c : Option Bytes} (h : Refines w k c) :
    w.read = readOfCell c := by
  obtain ⟨hk, v, hi, rfl⟩ := h
  have := hi.read
  rw [← hk] at this
  rw [show w = ⟨w.pages, w.idx⟩ from rfl, this, hk]
  split <;> rfl

theorem Refines.step {w w' : Wear} {k : Nat} {c : Option Bytes} {e : StoreEv} (h : Refines w k c)
    (ha : StoreEv.admissible e) (hk : k + 1 < 2 ^ 64) (hs : storeStep w e = .ok w') :
    ∃ k' c', k' ≤ k + 1 ∧ Refines w' k' c' ∧ CellStep c e c' := by
  obtain ⟨hidx, v, hi, rfl⟩ := h
  have hmod : (w.idx + 1) % 2 ^ 64 = k + 1 := by rw [hidx]; exact Nat.mod_eq_of_lt hk
  have hpos := hi.pos
  have hne : ¬ w.pages.length = 0 := by omega
  cases e with
  | write u =>
    simp only [storeStep, Wear.write, hmod, hne, if_false, Except.ok.injEq] at hs
    subst hs
    exact ⟨k + 1, some u, by omega, ⟨rfl, u, hi.set hk ha, by simp⟩, .write _ _⟩
  | relaunch =>
    simp only [storeStep, hi.new, Except.ok.injEq] at hs
    subst hs
    exact ⟨k, _, by omega, ⟨rfl, v, hi, rfl⟩, .relaunch _⟩
  | interrupted u t =>
    simp only [storeStep, Wear.write, hmod, hne, if_false] at hs
    have hlt : (k + 1) % w.pages.length < w.pages.length := Nat.mod_lt _ hpos
    cases t with
    | old =>
      simp only [List.getD_eq_getElem?_getD, List.getElem?_eq_getElem hlt, Option.getD_some,
        List.set_getElem_self, hi.new, Except.ok.injEq] at hs
      subst hs
      exact ⟨k, _, by omega, ⟨rfl, v, hi, rfl⟩, .kept _ _ _⟩
    | new =>
      have hi' := hi.set hk ha.1
      simp only [hi'.new, Except.ok.injEq] at hs
      subst hs
      exact ⟨k + 1, some u, by omega, ⟨rfl, u, hi', by simp⟩, .stored _ _ _⟩
    | garbage g =>
      exfalso
      have hg := ha.2 g rfl
      have : Wear.new (w.pages.set ((k + 1) % w.pages.length) g) = .error .crc := by
        unfold Wear.new
        rw [alignLoop_none ⟨g, List.mem_set hlt _, hg⟩]
      rw [this] at hs
      simp at hs

theorem Refines.run {w w' : Wear} {k : Nat} {c : Option Bytes} {es : List StoreEv} (h : Refines w k c)
    (ha : ∀ e ∈ es, StoreEv.admissible e) (hk : k + es.length < 2 ^ 64) (hs : storeRun w es = .ok w') :
    ∃ k' c', k' ≤ k + es.length ∧ Refines w' k' c' ∧ CellRun c es c' := by
  induction es generalizing w k c with
  | nil =>
    simp only [storeRun, Except.ok.injEq] at hs
    subst hs
    exact ⟨k, c, by simp, h, .nil _⟩
  | cons e es ih =>
    obtain ⟨w1, h1, h2⟩ := ebind_ok.mp hs
    simp only [List.length_cons] at hk
    obtain ⟨k1, c1, hk1, hr1, hc1⟩ := h.step (ha e (by simp)) (by omega) h1
    obtain ⟨k2, c2, hk2, hr2, hc2⟩ := ih hr1 (fun e he => ha e (by simp [he])) (by omega) h2
    exact ⟨k2, c2, by simp; omega, hr2, .cons hc1 hc2⟩

theorem Refines.fresh {n : Nat} (hn : 1 ≤ n) :
    ∃ w, Wear.new (freshPages n) = .ok w ∧ Refines w 0 none := by
  have hi := StoreInv.fresh (n := n) (by omega)
  exact ⟨_, hi.new, rfl, _, hi, by simp⟩

/-- A history without interrupted writes never fails to open, and its cell is the last write. -/
theorem Refines.run_clean {w : Wear} {k : Nat} {c : Option Bytes} {es : List StoreEv} (h : Refines w k c)
    (ha : ∀ e ∈ es, StoreEv.admissible e) (hn : ∀ e ∈ es, e.isInterrupted = false)
    (hk : k + es.length < 2 ^ 64) :
    ∃ w' k', k' ≤ k + es.length ∧ storeRun w es = .ok w' ∧ Refines w' k' (lastWrite c es) := by
  induction es generalizing w k c with
  | nil => exact ⟨w, k, by simp, rfl, h⟩
  | cons e es ih =>
    simp only [List.length_cons] at hk
    have hok : ∃ w1, storeStep w e = .ok w1 := by
      cases e with
      | write v => exact ⟨_, rfl⟩
      | relaunch =>
        obtain ⟨_, v, hi, _⟩ := h
        exact ⟨_, hi.new⟩
      | interrupted v t => have := hn _ (List.mem_cons_self ..); simp [StoreEv.isInterrupted] at this
    obtain ⟨w1, h1⟩ := hok
    obtain ⟨k1, c1, hk1, hr1, hc1⟩ := h.step (ha e (by simp)) (by omega) h1
    obtain ⟨w2, k2, hk2, h2, hr2⟩ := ih hr1 (fun e he => ha e (by simp [he]))
      (fun e he => hn e (by simp [he])) (by omega)
    refine ⟨w2, k2, by simp; omega, ?_, ?_⟩
    · simp only [storeRun, h1, ebind_ok_left, h2]
    · cases e with
      | write v => cases hc1; exact hr2
      | relaunch => cases hc1; exact hr2
      | interrupted v t => have := hn _ (List.mem_cons_self ..); simp [StoreEv.isInterrupted] at this

/-- C17. A store of any number of pages, as flashed, taken through any history of writes and relaunches,
opens and reads as the single cell: the last written 52 bytes, or `uninitialized` if there was none. -/
theorem C17_wear_is_single_cell {n : Nat} (hn : 1 ≤ n) {es : List StoreEv}
    (hp : ∀ v, StoreEv.write v ∈ es → v.length = 52) (hc : ∀ e ∈ es, e.isInterrupted = false)
    (hlen : es.length < 2 ^ 64) :
    ∃ w0 w, Wear.new (freshPages n) = .ok w0 ∧ storeRun w0 es = .ok w ∧
      w.read = match lastWrite none es with
        | none => .error .uninitialized
        | some v => .ok v := by
  obtain ⟨w0, h0, hr0⟩ := Refines.fresh hn
  have ha : ∀ e ∈ es, StoreEv.admissible e := by
    intro e he
    cases e with
    | write v => exact hp v he
    | relaunch => trivial
    | interrupted v t => have := hc _ he; simp [StoreEv.isInterrupted] at this
  obtain ⟨w, k, _, h1, hr⟩ := hr0.run_clean ha hc (by omega)
  refine ⟨w0, w, h0, h1, ?_⟩
  rw [hr.read]
  cases lastWrite none es <;> rfl

/-- A case of C17: 20 writes to 8 pages with a relaunch in the middle. -/
example : lastWrite none
    ((List.range 20).map (fun i => StoreEv.write (List.replicate 52 (UInt8.ofNat i))) ++
      [StoreEv.relaunch, StoreEv.write (List.replicate 52 7), StoreEv.relaunch])
    = some (List.replicate 52 7) := by decide +kernel

/-- C18. Power may be lost during any number of the writes. As long as every interrupted page is unchanged,
completely written, or fails its checksum, a store that still opens reads as the single cell would after
the same history, in which every interrupted write either took full effect or none. -/
theorem C18_power_loss_atomic_or_detected {n : Nat} (hn : 1 ≤ n) {es : List StoreEv} {w0 w : Wear}
    (ha : ∀ e ∈ es, StoreEv.admissible e) (hlen : es.length < 2 ^ 64)
    (h0 : Wear.new (freshPages n) = .ok w0) (h1 : storeRun w0 es = .ok w) :
    ∃ c, CellRun none es c ∧
      w.read = match c with
        | none => .error .uninitialized
        | some v => .ok v := by
  obtain ⟨w0', h0', hr0⟩ := Refines.fresh hn
  rw [h0] at h0'
  cases h0'
  obtain ⟨k, c, _, hr, hc⟩ := hr0.run ha (by omega) h1
  refine ⟨c, hc, ?_⟩
  rw [hr.read]
  cases c <;> rfl

/-- C19 (partial: only for interruptions that leave the page unchanged or complete). The store opens
after such an interrupted write and reads as the old respectively the new value. Missing: a page with a
bad checksum, for which the property is false (`C19_negation`). -/
theorem C19_interrupted_write_partial {n : Nat} (hn : 1 ≤ n) {es : List StoreEv} {v : Bytes}
    (hp : ∀ u, StoreEv.write u ∈ es → u.length = 52) (hc : ∀ e ∈ es, e.isInterrupted = false)
    (hv : v.length = 52) (hlen : es.length + 1 < 2 ^ 64) :
    ∃ w0 w wo wn, Wear.new (freshPages n) = .ok w0 ∧ storeRun w0 es = .ok w ∧
      storeStep w (.interrupted v .old) = .ok wo ∧ wo.read = w.read ∧
      storeStep w (.interrupted v .new) = .ok wn ∧ wn.read = .ok v := by
  obtain ⟨w0, h0, hr0⟩ := Refines.fresh hn
  have ha : ∀ e ∈ es, StoreEv.admissible e := by
    intro e he
    cases e with
    | write v => exact hp v he
    | relaunch => trivial
    | interrupted v t => have := hc _ he; simp [StoreEv.isInterrupted] at this
  obtain ⟨w, k, hk, h1, hr⟩ := hr0.run_clean ha hc (by omega)
  have hr' := hr
  obtain ⟨hidx, u, hi, hcell⟩ := hr'
  have hk64 : k + 1 < 2 ^ 64 := by omega
  have hmod : (w.idx + 1) % 2 ^ 64 = k + 1 := by rw [hidx]; exact Nat.mod_eq_of_lt hk64
  have hpos := hi.pos
  have hne : ¬ w.pages.length = 0 := by omega
  have hlt : (k + 1) % w.pages.length < w.pages.length := Nat.mod_lt _ hpos
  refine ⟨w0, w, ⟨w.pages, k⟩,
    ⟨w.pages.set ((k + 1) % w.pages.length) (Slot.toPage (k + 1) v), k + 1⟩, h0, h1, ?_, ?_, ?_, ?_⟩
  · simp only [storeStep, Wear.write, hmod, hne, if_false, List.getD_eq_getElem?_getD,
      List.getElem?_eq_getElem hlt, Option.getD_some, List.set_getElem_self, hi.new]
  · rw [show w = ⟨w.pages, w.idx⟩ from rfl, hidx]
  · simp only [storeStep, Wear.write, hmod, hne, if_false]
    exact (hi.set hk64 hv).new
  · rw [(hi.set hk64 hv).read]
    simp

/-- C19, negation. For any number of pages from two on and after any clean history with at least one
write, an interrupted write that leaves a page failing its checksum makes the store refuse to open,
although another page still holds the last completed value intact. -/
theorem C19_negation {n : Nat} (hn : 2 ≤ n) {es : List StoreEv} {v g lastv : Bytes}
    (hp : ∀ u, StoreEv.write u ∈ es → u.length = 52) (hc : ∀ e ∈ es, e.isInterrupted = false)
    (hlen : es.length + 1 < 2 ^ 64) (hg : Slot.ofPage g = none) (hlast : lastWrite none es = some lastv) :
    ∃ w0 w, Wear.new (freshPages n) = .ok w0 ∧ storeRun w0 es = .ok w ∧
      storeStep w (.interrupted v (.garbage g)) = .error .crc ∧
      ∃ p ∈ (w.write (.powerLoss g) v).1.pages, ∃ cnt, Slot.ofPage p = some ⟨cnt, lastv⟩ := by
  obtain ⟨w0, h0, hr0⟩ := Refines.fresh (n := n) (by omega)
  have ha : ∀ e ∈ es, StoreEv.admissible e := by
    intro e he
    cases e with
    | write v => exact hp v he
    | relaunch => trivial
    | interrupted v t => have := hc _ he; simp [StoreEv.isInterrupted] at this
  obtain ⟨w, k, hk, h1, hr⟩ := hr0.run_clean ha hc (by omega)
  have hlenp : ∀ {w w' : Wear} {es : List StoreEv}, storeRun w es = .ok w' → (∀ e ∈ es, e.isInterrupted = false) →
      w'.pages.length = w.pages.length := by
    intro w w' es
    induction es generalizing w with
    | nil => intro h _; simp only [storeRun, Except.ok.injEq] at h; rw [h]
    | cons e es ih =>
      intro h hc
      obtain ⟨w1, h1, h2⟩ := ebind_ok.mp h
      rw [ih h2 (fun e he => hc e (by simp [he]))]
      cases e with
      | write v =>
        simp only [storeStep, Wear.write, Except.ok.injEq] at h1
        split at h1 <;> (subst h1; simp)
      | relaunch =>
        simp only [storeStep, Wear.new] at h1
        split at h1
        · simp at h1
        · simp only [Except.ok.injEq] at h1; rw [← h1]
      | interrupted v t => have := hc _ (List.mem_cons_self ..); simp [StoreEv.isInterrupted] at this
  obtain ⟨hidx, u, hi, hcell⟩ := hr
  have hwn : w.pages.length = n := by
    rw [hlenp h1 hc]
    have : w0 = ⟨freshPages n, 0⟩ := by
      have := (StoreInv.fresh (n := n) (by omega)).new
      rw [h0] at this
      exact Except.ok.inj this
    rw [this]; simp [freshPages]
  have hk64 : k + 1 < 2 ^ 64 := by omega
  have hmod : (w.idx + 1) % 2 ^ 64 = k + 1 := by rw [hidx]; exact Nat.mod_eq_of_lt hk64
  have hne : ¬ w.pages.length = 0 := by omega
  have hlt : (k + 1) % w.pages.length < w.pages.length := Nat.mod_lt _ hi.pos
  rw [hlast] at hcell
  have hu : u = lastv := by
    split at hcell
    · simp at hcell
    · exact (Option.some.inj hcell).symm
  refine ⟨w0, w, h0, h1, ?_, ?_⟩
  · simp only [storeStep, Wear.write, hmod, hne, if_false]
    unfold Wear.new
    rw [alignLoop_none ⟨g, List.mem_set hlt _, hg⟩]
  · obtain ⟨p, hpk, hpv⟩ := hi.cur
    refine ⟨p, ?_, k, by rw [hpv, hu]⟩
    simp only [Wear.write, hmod, hne, if_false]
    have hdiff : (k + 1) % w.pages.length ≠ k % w.pages.length := by
      rw [hwn]
      exact mod_ne_of_lt (by omega) (by omega)
    apply List.mem_of_getElem? (i := k % w.pages.length)
    rw [List.getElem?_set_ne hdiff]
    exact hpk

/-- A page that fails its checksum exists, so `C19_negation` and the garbage case of C18 are not vacuous. -/
theorem garbage_exists : Slot.ofPage (List.replicate 64 0xFF) = none := by decide +kernel

/-! ### C16: a write that fails with an exception -/

/-- The store after completing the writes `vs` in order. -/
def writeAll (w : Wear) : List Bytes → Wear
  | [] => w
  | v :: vs => writeAll (w.write .done v).1 vs

/-- The last `n` writes are all still in flash, each in the page of its counter. -/
structure Ring (w : Wear) (vs : List Bytes) (n : Nat) : Prop where
  len : w.pages.length = n
  idx : w.idx = vs.length
  ring : ∀ c v, c < vs.length → vs.length ≤ c + n → vs[c]? = some v →
    w.pages[(c + 1) % n]? = some (Slot.toPage (c + 1) v)

theorem Ring.write {w : Wear} {vs : List Bytes} {n : Nat} {v : Bytes} (hn : 0 < n) (h : Ring w vs n)
    (hl : vs.length + 1 < 2 ^ 64) : Ring (w.write .done v).1 (vs ++ [v]) n := by
  obtain ⟨hlen, hidx, hring⟩ := h
  have hmod : (w.idx + 1) % 2 ^ 64 = vs.length + 1 := by rw [hidx]; exact Nat.mod_eq_of_lt hl
  have hne : ¬ w.pages.length = 0 := by omega
  have hlt : (vs.length + 1) % n < n := Nat.mod_lt _ hn
  have hne' : ¬ n = 0 := by omega
  simp only [Wear.write, hmod, hne', if_false, hlen]
  refine ⟨by simpa using hlen, by simp, ?_⟩
  intro c u hc hcn hu
  simp only [List.length_append, List.length_cons, List.length_nil] at hc hcn
  by_cases hcl : c = vs.length
  · subst hcl
    simp only [List.getElem?_concat_length, Option.some.injEq] at hu
    subst hu
    exact List.getElem?_set_self (by omega)
  · have hne2 : (vs.length + 1) % n ≠ (c + 1) % n := mod_ne_of_lt (by omega) (by omega)
    rw [List.getElem?_set_ne hne2]
    apply hring c u (by omega) (by omega)
    rwa [List.getElem?_append_left (by omega)] at hu

theorem Ring.writeAll {w : Wear} {us vs : List Bytes} {n : Nat} (hn : 0 < n) (h : Ring w us n)
    (hl : us.length + vs.length < 2 ^ 64) : Ring (Tezos.writeAll w vs) (us ++ vs) n := by
  induction vs generalizing w us with
  | nil => simpa [Tezos.writeAll] using h
  | cons v vs ih =>
    simp only [List.length_cons] at hl
    have := ih (h.write (v := v) hn (by omega)) (by simp; omega)
    simpa [Tezos.writeAll] using this

/-- C16, negation. On a store of `n >= 2` pages with at least `n` completed writes `vs`, a write that fails
without altering the flash leaves the running app reading the value written `n` writes ago, for every
such history. (With 8 pages and the watermark: the one eight writes back.) -/
theorem C16_negation {n : Nat} (hn : 2 ≤ n) {vs : List Bytes} {v attempted : Bytes}
    (h52 : ∀ u ∈ vs, u.length = 52) (hlen : vs.length + 1 < 2 ^ 64) (hvs : n ≤ vs.length)
    (hold : vs[vs.length - n]? = some v) :
    ∃ w0, Wear.new (freshPages n) = .ok w0 ∧
      let w := writeAll w0 vs
      let page := w.pages.getD ((w.idx + 1) % n) []
      (w.write (.fails page) attempted).1.pages = w.pages ∧
      (w.write (.fails page) attempted).2 = .err ∧
      (w.write (.fails page) attempted).1.read = .ok v := by
  obtain ⟨w0, h0, hidx0, _, hi0, _⟩ := Refines.fresh (n := n) (by omega)
  have hw0 : w0 = ⟨freshPages n, 0⟩ := by
    have := (StoreInv.fresh (n := n) (by omega)).new
    rw [h0] at this
    exact Except.ok.inj this
  have hr : Ring w0 [] n := ⟨by rw [hw0]; simp [freshPages], hidx0, by intro c v hc; simp at hc⟩
  have hR := hr.writeAll (vs := vs) (by omega) (by simp; omega)
  simp only [List.nil_append] at hR
  refine ⟨w0, h0, ?_⟩
  simp only
  generalize Tezos.writeAll w0 vs = w at hR
  obtain ⟨hl, hidx, hring⟩ := hR
  have hmod : (w.idx + 1) % 2 ^ 64 = vs.length + 1 := by rw [hidx]; exact Nat.mod_eq_of_lt hlen
  have hne : ¬ w.pages.length = 0 := by omega
  have hne' : ¬ n = 0 := by omega
  have hlt : (vs.length + 1) % n < w.pages.length := by rw [hl]; exact Nat.mod_lt _ (by omega)
  have hpg : w.pages.getD ((vs.length + 1) % n) [] = w.pages[(vs.length + 1) % n] := by
    simp [List.getD_eq_getElem?_getD, List.getElem?_eq_getElem hlt]
  simp only [Wear.write, hmod, hl, hne', if_false]
  rw [hidx, hpg, List.set_getElem_self]
  refine ⟨rfl, trivial, ?_⟩
  have hc := hring (vs.length - n) v (by omega) (by omega) hold
  have hcm : (vs.length - n + 1) % n = (vs.length + 1) % n := by
    rw [show vs.length + 1 = vs.length - n + 1 + n by omega, Nat.add_mod_right]
  rw [hcm] at hc
  have hv52 : v.length = slotSize := h52 v (List.mem_of_getElem? hold)
  have hdec := Slot.ofPage_toPage (c := vs.length - n + 1) (p := v) (by omega) hv52
  simp only [Wear.read, hl, hc, hdec]
  rw [if_neg (by omega)]

/-- A case of `C16_negation`: nine watermarks written to 8 pages; the failing write brings back the
second one. -/
example : ∃ w0, Wear.new (freshPages 8) = .ok w0 ∧
    ((writeAll w0 ((List.range 9).map fun i => List.replicate 52 (UInt8.ofNat i))).write
      (.fails ((writeAll w0 ((List.range 9).map fun i => List.replicate 52 (UInt8.ofNat i))).pages.getD
        (((writeAll w0 ((List.range 9).map fun i => List.replicate 52 (UInt8.ofNat i))).idx + 1) % 8) []))
      (List.replicate 52 9)).1.read = .ok (List.replicate 52 1) := by
  obtain ⟨w0, h0, h⟩ := C16_negation (n := 8) (by decide)
    (vs := (List.range 9).map fun i => List.replicate 52 (UInt8.ofNat i)) (v := List.replicate 52 1)
    (attempted := List.replicate 52 9) (by intro u hu; simp at hu; obtain ⟨_, _, rfl⟩ := hu; simp)
    (by simp) (by simp) (by rfl)
  exact ⟨w0, h0, h.2.2⟩

/-- C16 (partial: after a relaunch, and for failures that leave the page unchanged or complete). The next
relaunch after a failed write reads the previous value or the attempted one. Missing: reads before the
relaunch, for which the property is false (`C16_negation`). -/
theorem C16_failed_write_then_relaunch_partial {n : Nat} (hn : 1 ≤ n) {es : List StoreEv} {v : Bytes}
    (hp : ∀ u, StoreEv.write u ∈ es → u.length = 52) (hc : ∀ e ∈ es, e.isInterrupted = false)
    (hv : v.length = 52) (hlen : es.length + 1 < 2 ^ 64) :
    ∃ w0 w, Wear.new (freshPages n) = .ok w0 ∧ storeRun w0 es = .ok w ∧
      (∃ wo, Wear.new (w.write (.fails (w.pages.getD ((w.idx + 1) % w.pages.length) [])) v).1.pages = .ok wo ∧
        wo.read = w.read) ∧
      (∃ wn, Wear.new (w.write (.fails (Slot.toPage (w.idx + 1) v)) v).1.pages = .ok wn ∧
        wn.read = .ok v) := by
  obtain ⟨w0, h0, hr0⟩ := Refines.fresh hn
  have ha : ∀ e ∈ es, StoreEv.admissible e := by
    intro e he
    cases e with
    | write v => exact hp v he
    | relaunch => trivial
    | interrupted v t => have := hc _ he; simp [StoreEv.isInterrupted] at this
  obtain ⟨w, k, hk, h1, hr⟩ := hr0.run_clean ha hc (by omega)
  obtain ⟨hidx, u, hi, hcell⟩ := hr
  have hk64 : k + 1 < 2 ^ 64 := by omega
  have hmod : (w.idx + 1) % 2 ^ 64 = k + 1 := by rw [hidx]; exact Nat.mod_eq_of_lt hk64
  have hpos := hi.pos
  have hne : ¬ w.pages.length = 0 := by omega
  have hlt : (k + 1) % w.pages.length < w.pages.length := Nat.mod_lt _ hpos
  refine ⟨w0, w, h0, h1, ⟨⟨w.pages, k⟩, ?_, ?_⟩,
    ⟨⟨w.pages.set ((k + 1) % w.pages.length) (Slot.toPage (k + 1) v), k + 1⟩, ?_, ?_⟩⟩
  · simp only [Wear.write, hmod, hne, if_false]
    simp only [hidx, List.getD_eq_getElem?_getD,
      List.getElem?_eq_getElem hlt, Option.getD_some, List.set_getElem_self, hi.new]
  · rw [show w = ⟨w.pages, w.idx⟩ from rfl, hidx]
  · simp only [Wear.write, hmod, hne, if_false]
    simp only [hidx]
    exact (hi.set hk64 hv).new
  · rw [(hi.set hk64 hv).read]
    simp

end Tezos
