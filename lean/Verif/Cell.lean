import Verif.Device
import Verif.Props.Flash
/-
A flash record of the device as a single cell: what a read returns and what a write leaves, for every fate of the
write. Used by the theorems about histories.
-/
namespace Tezos

/-- Contents of a record: nothing written yet, a value, or a page that fails its checksum. -/
inductive Cell where
  | blank
  | val (b : Bytes)
  | broken
  deriving DecidableEq, Repr

/-- What reading a record with these contents gives. -/
def Cell.Reads : Cell → ReadRes → Prop
  | .blank, r => r = .err .uninitialized
  | .val b, r => r = .ok b
  | .broken, r => r = .panic ∨ r = .err .crc

/-- What writing `b` to a record does to its contents. -/
def Cell.Writes (c : Cell) (b : Bytes) (r : WriteRes) (c' : Cell) : Prop :=
  (r = .ok ∧ c' = .val b) ∨ (r ≠ .ok ∧ (c' = c ∨ c' = .val b ∨ c' = .broken))

/-- Pages that are neither unchanged nor complete fail their checksum. -/
def PageLeft.Detected : PageLeft → Prop
  | .other page => Slot.ofPage page = none
  | _ => True

/-- A write that completes, or is cut by a power loss that the checksum detects. -/
def Fate.Sound : Fate → Prop
  | .done => True
  | .powerLoss left => left.Detected
  | .fails _ => False

/-- As `Sound`, or failing with an exception in a way the checksum detects. -/
def Fate.Detected : Fate → Prop
  | .done => True
  | .powerLoss left => left.Detected
  | .fails left => left.Detected

/-- A record of any number of pages with at most `n` writes so far, none of which failed with an exception, has
contents `c`. -/
inductive Store.Holds (st : Store) (n : Nat) : Cell → Prop where
  | good {k : Nat} {v : Bytes} (hk : k ≤ n) (hc : st.cache = none ∨ st.cache = some k)
      (hi : StoreInv st.pages k v) : Holds st n (if k = 0 then .blank else .val v)
  | broken (hc : st.cache = none) (hp : ∃ p ∈ st.pages, Slot.ofPage p = none) : Holds st n .broken

theorem Store.Holds.fresh {n : Nat} (hn : 0 < n) : Store.Holds ⟨freshPages n, none⟩ 0 .blank :=
  .good (k := 0) (Nat.le_refl _) (.inl rfl) (StoreInv.fresh hn)

theorem Store.Holds.mono {st : Store} {n m : Nat} {c : Cell} (h : st.Holds n c) (hm : n ≤ m) : st.Holds m c := by
  cases h with
  | good hk hc hi => exact .good (by omega) hc hi
  | broken hc hp => exact .broken hc hp

theorem Store.Holds.relaunch {st : Store} {n : Nat} {c : Cell} (h : st.Holds n c) : st.relaunch.Holds n c := by
  cases h with
  | good hk hc hi => exact .good hk (.inl rfl) hi
  | broken hc hp => exact .broken rfl hp

theorem Wear.new_broken {pages : List Bytes} (h : ∃ p ∈ pages, Slot.ofPage p = none) :
    Wear.new pages = .error .crc := by
  unfold Wear.new
  rw [alignLoop_none h]

theorem Store.wear_good {st : Store} {k : Nat} {v : Bytes} (hc : st.cache = none ∨ st.cache = some k)
    (hi : StoreInv st.pages k v) : st.wear = .ok ⟨st.pages, k⟩ := by
  unfold Store.wear
  rcases hc with hc | hc <;> rw [hc]
  exact hi.new

theorem Store.Holds.read {st : Store} {n : Nat} {c : Cell} (h : st.Holds n c) : c.Reads st.read := by
  cases h with
  | @good k v hk hc hi =>
    have : st.read = if k = 0 then .err .uninitialized else .ok v := by
      simp only [Store.read, Store.wear_good hc hi, hi.read]
      by_cases h0 : k = 0 <;> simp only [h0, if_true, if_false]
    rw [this]
    split <;> rfl
  | broken hc hp =>
    left
    simp only [Store.read, Store.wear, hc, Wear.new_broken hp]

theorem Store.Holds.write {st : Store} {n : Nat} {c : Cell} {f : Fate} {b : Bytes} (h : st.Holds n c)
    (hn : n + 1 < 2 ^ 64) (hb : b.length = slotSize) (hf : f.Sound) :
    ∃ c', (st.write f b).1.Holds (n + 1) c' ∧ c.Writes b (st.write f b).2 c' ∧
      ((st.write f b).2 = .ok → f = .done) := by
  cases h with
  | @good k v hk hc hi =>
    have hmod : (k + 1) % 2 ^ 64 = k + 1 := Nat.mod_eq_of_lt (by omega)
    have hne : ¬ st.pages.length = 0 := by have := hi.pos; omega
    have hlt : (k + 1) % st.pages.length < st.pages.length := Nat.mod_lt _ hi.pos
    simp only [Store.write, Store.wear_good hc hi, Wear.write, hmod, hne, if_false]
    cases f with
    | done =>
      refine ⟨.val b, ?_, .inl ⟨rfl, rfl⟩, fun _ => rfl⟩
      exact .good (k := k + 1) (by omega) (.inr rfl) (hi.set (by omega) hb)
    | fails l => exact hf.elim
    | powerLoss l =>
      cases l with
      | unchanged =>
        refine ⟨_, ?_, .inr ⟨by simp [Fate.forWear], .inl rfl⟩, by simp [Fate.forWear]⟩
        simp only [Fate.forWear, PageLeft.page, hmod, List.getD_eq_getElem?_getD,
          List.getElem?_eq_getElem hlt, Option.getD_some, List.set_getElem_self]
        exact .good (by omega) (.inl rfl) hi
      | complete =>
        refine ⟨.val b, ?_, .inr ⟨by simp [Fate.forWear], .inr (.inl rfl)⟩, by simp [Fate.forWear]⟩
        simp only [Fate.forWear, PageLeft.page, hmod]
        exact .good (k := k + 1) (by omega) (.inl rfl) (hi.set (by omega) hb)
      | other p =>
        refine ⟨.broken, ?_, .inr ⟨by simp [Fate.forWear], .inr (.inr rfl)⟩, by simp [Fate.forWear]⟩
        exact .broken rfl ⟨p, List.mem_set hlt _, hf⟩
  | broken hc hp =>
    have hw : st.write f b = (st, .panic) := by simp only [Store.write, Store.wear, hc, Wear.new_broken hp]
    rw [hw]
    exact ⟨.broken, .broken hc hp, .inr ⟨by simp, .inl rfl⟩, by simp⟩

/-- A good record accepts a write that completes. -/
theorem Store.Holds.write_done {st : Store} {n : Nat} {c : Cell} {b : Bytes} (h : st.Holds n c)
    (hb : c ≠ .broken) : (st.write .done b).2 = .ok := by
  cases h with
  | good hk hc hi =>
    have hne : ¬ st.pages.length = 0 := by have := hi.pos; omega
    simp only [Store.write, Store.wear_good hc hi, Wear.write, hne, if_false, Fate.forWear]
  | broken hc hp => exact absurd rfl hb

/-- A write that does not complete is not reported as successful. -/
theorem Store.write_ok_done {st : Store} {f : Fate} {b : Bytes} (h : (st.write f b).2 = .ok) : f = .done := by
  unfold Store.write at h
  split at h
  · simp at h
  · simp only [Wear.write] at h
    split at h
    · simp at h
    · cases f <;> simp [Fate.forWear] at h ⊢

/-! ### The record of one page

For the key record (one page) writes failing with an exception do no harm. -/

/-- A record of one page with at most `n` writes so far has contents `c`. -/
inductive Store.Holds1 (st : Store) (n : Nat) : Cell → Prop where
  | good {p : Bytes} {k : Nat} {v : Bytes} (hp : st.pages = [p]) (hs : Slot.ofPage p = some ⟨k, v⟩) (hk : k ≤ n)
      (hc : ∀ i, st.cache = some i → i ≤ n) : Holds1 st n (if k = 0 then .blank else .val v)
  | broken {p : Bytes} (hp : st.pages = [p]) (hs : Slot.ofPage p = none)
      (hc : ∀ i, st.cache = some i → i ≤ n) : Holds1 st n .broken

theorem Store.Holds1.fresh : Store.Holds1 ⟨freshPages 1, none⟩ 0 .blank :=
  .good (p := zeroedPage) (k := 0) rfl Slot.ofPage_zeroed (Nat.le_refl _) (by simp)

theorem Store.Holds1.mono {st : Store} {n m : Nat} {c : Cell} (h : st.Holds1 n c) (hm : n ≤ m) : st.Holds1 m c := by
  cases h with
  | good hp hs hk hc => exact .good hp hs (by omega) (fun i hi => by have := hc i hi; omega)
  | broken hp hs hc => exact .broken hp hs (fun i hi => by have := hc i hi; omega)

theorem Store.Holds1.relaunch {st : Store} {n : Nat} {c : Cell} (h : st.Holds1 n c) : st.relaunch.Holds1 n c := by
  cases h with
  | good hp hs hk hc => exact .good hp hs hk (by simp [Store.relaunch])
  | broken hp hs hc => exact .broken hp hs (by simp [Store.relaunch])

theorem Wear.new_single {p : Bytes} {k : Nat} {v : Bytes} (hs : Slot.ofPage p = some ⟨k, v⟩) :
    Wear.new [p] = .ok ⟨[p], k⟩ := by
  simp only [Wear.new, alignLoop, hs]
  congr 2
  split <;> omega

theorem Store.Holds1.read {st : Store} {n : Nat} {c : Cell} (h : st.Holds1 n c) : c.Reads st.read := by
  cases h with
  | @good p k v hp hs hk hc =>
    have : st.read = if k = 0 then .err .uninitialized else .ok v := by
      cases hcc : st.cache with
      | none =>
        simp only [Store.read, Store.wear, hcc, hp, Wear.new_single hs, Wear.read, List.length_singleton,
          Nat.mod_one, List.getElem?_cons_zero, hs]
        by_cases h0 : k = 0 <;> simp only [h0, if_true, if_false]
      | some i =>
        simp only [Store.read, Store.wear, hcc, hp, Wear.read, List.length_singleton,
          Nat.mod_one, List.getElem?_cons_zero, hs]
        by_cases h0 : k = 0 <;> simp only [h0, if_true, if_false]
    rw [this]
    split <;> rfl
  | @broken p hp hs hc =>
    cases hcc : st.cache with
    | none =>
      left
      simp only [Store.read, Store.wear, hcc, Wear.new_broken (pages := st.pages) ⟨p, by simp [hp], hs⟩]
    | some i =>
      right
      simp only [Store.read, Store.wear, hcc, hp, Wear.read, List.length_singleton,
        Nat.mod_one, List.getElem?_cons_zero, hs]

theorem Store.Holds1.write {st : Store} {n : Nat} {c : Cell} {f : Fate} {b : Bytes} (h : st.Holds1 n c)
    (hn : n + 1 < 2 ^ 64) (hb : b.length = slotSize) (hf : f.Detected) :
    ∃ c', (st.write f b).1.Holds1 (n + 1) c' ∧ c.Writes b (st.write f b).2 c' := by
  have key : ∀ (p : Bytes) (i : Nat), st.pages = [p] → st.wear = .ok ⟨[p], i⟩ → i ≤ n → st.Holds1 n c →
      ∃ c', (st.write f b).1.Holds1 (n + 1) c' ∧ c.Writes b (st.write f b).2 c' := by
    intro p i hp hw hi h
    have hmod : (i + 1) % 2 ^ 64 = i + 1 := Nat.mod_eq_of_lt (by omega)
    have hnew : Store.Holds1 ⟨[Slot.toPage (i + 1) b], some (i + 1)⟩ (n + 1) (.val b) :=
      .good (k := i + 1) rfl (Slot.ofPage_toPage (by omega) hb) (by omega) (by simp; omega)
    have hold : ∀ c0 : Option Nat, (∀ j, c0 = some j → j ≤ n + 1) → Store.Holds1 ⟨[p], c0⟩ (n + 1) c := by
      intro c0 hc0
      cases h with
      | good hp' hs hk hc =>
        rw [hp] at hp'
        cases hp'
        exact .good rfl hs (by omega) hc0
      | broken hp' hs hc =>
        rw [hp] at hp'
        cases hp'
        exact .broken rfl hs hc0
    simp only [Store.write, hw, Wear.write, hmod, List.length_singleton, Nat.mod_one]
    cases f with
    | done => exact ⟨.val b, hnew, .inl ⟨rfl, rfl⟩⟩
    | fails l =>
      cases l with
      | unchanged =>
        refine ⟨c, ?_, .inr ⟨by simp [Fate.forWear], .inl rfl⟩⟩
        simp [Fate.forWear, PageLeft.page, Nat.mod_one]
        exact hold _ (by simp; omega)
      | complete =>
        refine ⟨.val b, ?_, .inr ⟨by simp [Fate.forWear], .inr (.inl rfl)⟩⟩
        simpa [Fate.forWear, PageLeft.page, hmod] using hnew
      | other q =>
        refine ⟨.broken, ?_, .inr ⟨by simp [Fate.forWear], .inr (.inr rfl)⟩⟩
        exact .broken (p := q) rfl hf (by simp [Fate.forWear]; omega)
    | powerLoss l =>
      cases l with
      | unchanged =>
        refine ⟨c, ?_, .inr ⟨by simp [Fate.forWear], .inl rfl⟩⟩
        simp [Fate.forWear, PageLeft.page, Nat.mod_one]
        exact hold _ (by simp)
      | complete =>
        refine ⟨.val b, ?_, .inr ⟨by simp [Fate.forWear], .inr (.inl rfl)⟩⟩
        simp [Fate.forWear, PageLeft.page, hmod]
        exact .good (k := i + 1) rfl (Slot.ofPage_toPage (by omega) hb) (by omega) (by simp)
      | other q =>
        refine ⟨.broken, ?_, .inr ⟨by simp [Fate.forWear], .inr (.inr rfl)⟩⟩
        exact .broken (p := q) rfl hf (by simp [Fate.forWear])
  cases hcc : st.cache with
  | none =>
    have h' := h
    cases h with
    | @good p k v hp hs hk hc =>
      exact key p k hp (by simp only [Store.wear, hcc, hp, Wear.new_single hs]) hk h'
    | @broken p hp hs hc =>
      have hw : st.write f b = (st, .panic) := by
        simp only [Store.write, Store.wear, hcc, Wear.new_broken (pages := st.pages) ⟨p, by simp [hp], hs⟩]
      rw [hw]
      exact ⟨.broken, h'.mono (by omega), .inr ⟨by simp, .inl rfl⟩⟩
  | some i =>
    have h' := h
    cases h with
    | @good p k v hp hs hk hc =>
      exact key p i hp (by simp only [Store.wear, hcc, hp]) (hc i hcc) h'
    | @broken p hp hs hc =>
      exact key p i hp (by simp only [Store.wear, hcc, hp]) (hc i hcc) h'

end Tezos
