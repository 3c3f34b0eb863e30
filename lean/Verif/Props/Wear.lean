import Verif.Histories
import Verif.Scenario
import Mathlib.Data.Nat.ModEq
/-
Wear is spread evenly over the slots of a record: the purpose of the wear levelling of rust/bolos/src/flash_slot.rs,
used with eight slots for each of the records of rust/app/src/handlers/hwm.rs.
-/
namespace Spec
open Tezos (Bytes)

/-- How many of the given transitions (contents before, contents after) change slot `a`. -/
def wornAt (a : Nat) (ts : List (List Bytes × List Bytes)) : Nat := ts.countP (fun t => t.1[a]? ≠ t.2[a]?)

/-- How many of the given transitions change anything. -/
def worn (ts : List (List Bytes × List Bytes)) : Nat := ts.countP (fun t => t.1 ≠ t.2)

/-- Even use of `n` slots: no transition changes more than one, no slot is more than one change ahead of another, and
none has had more than its share of the changes (rounded up). -/
structure EvenlyWorn (n : Nat) (ts : List (List Bytes × List Bytes)) : Prop where
  single : ∀ t ∈ ts, ∀ a b : Nat, t.1[a]? ≠ t.2[a]? → t.1[b]? ≠ t.2[b]? → a = b
  level : ∀ a b, a < n → b < n → wornAt a ts ≤ wornAt b ts + 1
  share : ∀ a, a < n → n * wornAt a ts < worn ts + n

end Spec

namespace Tezos
open Spec

/-! ### Counting turns -/

/-- How often slot `a` of `n` has had its turn in the first `k` writes. -/
def turns (n a k : Nat) : Nat := (k + (n - a) % n) / n

theorem turns_zero {n a : Nat} (hn : 0 < n) : turns n a 0 = 0 := by
  unfold turns
  exact Nat.div_eq_of_lt (by rw [Nat.zero_add]; exact Nat.mod_lt _ hn)

theorem turns_succ {n a k : Nat} (ha : a < n) :
    turns n a (k + 1) = turns n a k + if (k + 1) % n = a then 1 else 0 := by
  have hiff : n ∣ (k + (n - a) % n) + 1 ↔ (k + 1) % n = a := by
    have h1 : (k + (n - a) % n) + 1 = (k + 1) + (n - a) % n := by omega
    rw [h1]
    have hr := Nat.mod_lt (k + 1) (show 0 < n by omega)
    rw [Nat.dvd_iff_mod_eq_zero, Nat.add_mod, Nat.mod_mod]
    rcases Nat.eq_zero_or_pos a with rfl | h0
    · rw [Nat.sub_zero, Nat.mod_self, Nat.add_zero, Nat.mod_mod]
    · rw [Nat.mod_eq_of_lt (show n - a < n by omega)]
      by_cases hge : n ≤ (k + 1) % n + (n - a)
      · rw [Nat.mod_eq_sub_mod hge, Nat.mod_eq_of_lt (by omega)]
        omega
      · rw [Nat.mod_eq_of_lt (by omega)]
        omega
  unfold turns
  rw [show k + 1 + (n - a) % n = (k + (n - a) % n) + 1 by omega, Nat.succ_div]
  simp only [hiff]

theorem turns_level {n a b k : Nat} (ha : a < n) : turns n a k ≤ turns n b k + 1 := by
  unfold turns
  have h1 := Nat.mod_lt (n - a) (show 0 < n by omega)
  rw [← Nat.add_div_right _ (show 0 < n by omega)]
  exact Nat.div_le_div_right (by omega)

theorem turns_share {n a k : Nat} (ha : a < n) : n * turns n a k < k + n := by
  unfold turns
  have h1 := Nat.mod_lt (n - a) (show 0 < n by omega)
  have h2 := Nat.mul_div_le (k + (n - a) % n) n
  omega

/-! ### One record -/

/-- A record of `n` slots that `k` changes have been made to, in turn; at most `m` writes so far. -/
inductive Store.Turned (st : Store) (n m : Nat) : Nat → Prop where
  | good {k : Nat} {v : Bytes} (hl : st.pages.length = n) (hk : k ≤ m) (hc : st.cache = none ∨ st.cache = some k)
      (hi : StoreInv st.pages k v) : Turned st n m k
  | broken {k : Nat} (hl : st.pages.length = n) (hc : st.cache = none) (hp : ∃ p ∈ st.pages, Slot.ofPage p = none) :
      Turned st n m k

theorem Store.Turned.mono {st : Store} {n m m' k : Nat} (h : st.Turned n m k) (hm : m ≤ m') : st.Turned n m' k := by
  cases h with
  | good hl hk hc hi => exact .good hl (by omega) hc hi
  | broken hl hc hp => exact .broken hl hc hp

theorem Store.Turned.relaunch {st : Store} {n m k : Nat} (h : st.Turned n m k) : st.relaunch.Turned n m k := by
  cases h with
  | good hl hk hc hi => exact .good hl hk (.inl rfl) hi
  | broken hl hc hp => exact .broken hl rfl hp

/-- A write leaves the slots as they are, or changes the one whose turn it is. -/
theorem Store.Turned.write {st : Store} {n m k : Nat} {f : Fate} {b : Bytes} (h : st.Turned n m k)
    (hm : m + 1 < 2 ^ 64) (hb : b.length = slotSize) (hf : f.Sound) :
    ((st.write f b).1.pages = st.pages ∧ (st.write f b).1.Turned n (m + 1) k) ∨
    (∃ q, (st.write f b).1.pages = st.pages.set ((k + 1) % n) q ∧ st.pages[(k + 1) % n]? ≠ some q ∧
      (k + 1) % n < st.pages.length ∧ (st.write f b).1.Turned n (m + 1) (k + 1)) := by
  cases h with
  | @good v hl hk hc hi =>
    have hmod : (k + 1) % 2 ^ 64 = k + 1 := Nat.mod_eq_of_lt (by omega)
    have hne : ¬ st.pages.length = 0 := by have := hi.pos; omega
    have hlt : (k + 1) % st.pages.length < st.pages.length := Nat.mod_lt _ hi.pos
    obtain ⟨s, hs, hsk⟩ := hi.valid _ (List.getElem_mem hlt)
    have hnew : st.pages[(k + 1) % st.pages.length]? ≠ some (Slot.toPage (k + 1) b) := by
      rw [List.getElem?_eq_getElem hlt]
      intro he
      rw [Option.some.inj he, Slot.ofPage_toPage (by omega) hb] at hs
      cases hs
      exact absurd hsk (Nat.not_succ_le_self k)
    subst hl
    simp only [Store.write, Store.wear_good hc hi, Wear.write, hmod, hne, if_false]
    cases f with
    | done => exact .inr ⟨_, rfl, hnew, hlt, .good (by simp [Fate.forWear]) (by omega) (.inr rfl)
        (hi.set (by omega) hb)⟩
    | fails l => exact hf.elim
    | powerLoss l =>
      cases l with
      | unchanged =>
        left
        simp only [Fate.forWear, PageLeft.page, hmod, List.getD_eq_getElem?_getD,
          List.getElem?_eq_getElem hlt, Option.getD_some, List.set_getElem_self]
        exact ⟨trivial, .good rfl (by omega) (.inl rfl) hi⟩
      | complete =>
        right
        simp only [Fate.forWear, PageLeft.page, hmod]
        exact ⟨_, rfl, hnew, hlt, .good (by simp) (by omega) (.inl rfl) (hi.set (by omega) hb)⟩
      | other p =>
        right
        simp only [Fate.forWear, PageLeft.page]
        refine ⟨p, rfl, ?_, hlt, .broken (by simp) rfl ⟨p, List.mem_set hlt _, hf⟩⟩
        rw [List.getElem?_eq_getElem hlt]
        intro he
        rw [Option.some.inj he, show Slot.ofPage p = none from hf] at hs
        cases hs
  | broken hl hc hp =>
    have hw : st.write f b = (st, .panic) := by simp only [Store.write, Store.wear, hc, Wear.new_broken hp]
    rw [hw]
    exact .inl ⟨rfl, .broken hl hc hp⟩

/-! ### The records of the device -/

/-- The records with several slots: rust/app/src/handlers/hwm.rs 36-44. -/
inductive Rec where
  | main | test | chain
  deriving DecidableEq, Repr

def Rec.of : Rec → Dev → Store
  | .main, s => s.main
  | .test, s => s.test
  | .chain, s => s.chain

def Rec.fate : Rec → Env → Fate
  | .main, env => env.mainF
  | .test, env => env.testF
  | .chain, env => env.chainF

/-- What an event may do to a record: nothing, forget the position kept in RAM, or write once. -/
def Rec.Stepped (r : Rec) (env : Env) (s s' : Dev) : Prop :=
  r.of s' = r.of s ∨ r.of s' = (r.of s).relaunch ∨
    ∃ b, b.length = slotSize ∧ r.of s' = ((r.of s).write (r.fate env) b).1

theorem Rec.of_same (r : Rec) {s s' : Dev} (h : SameFlash s s') : r.of s' = r.of s := by
  cases r
  · exact h.main
  · exact h.test
  · exact h.chain

theorem Rec.of_stepped {r : Rec} {env : Env} {s s' s'' : Dev} (h : r.Stepped env s s') (hs : r.of s'' = r.of s') :
    r.Stepped env s s'' := by
  unfold Rec.Stepped
  rw [hs]
  exact h

theorem Dev.resetHwm_stepped (r : Rec) (env : Env) (l : UInt32) (s : Dev) :
    r.Stepped env s (s.resetHwm env l).st := by
  have hlen : (hwmBytes l).length = slotSize := WaterMark.encode_length _
  have hlen2 : (chainIdEncode mainnetChainId).length = slotSize := chainId_length _
  cases s.resetHwm_cases env l with
  | main _ hst _ =>
    rw [hst]
    cases r
    · exact .inr (.inr ⟨_, hlen, rfl⟩)
    · exact .inl rfl
    · exact .inl rfl
  | test _ _ hst _ =>
    rw [hst]
    cases r
    · exact .inr (.inr ⟨_, hlen, rfl⟩)
    · exact .inr (.inr ⟨_, hlen, rfl⟩)
    · exact .inl rfl
  | chain _ _ hst _ =>
    rw [hst]
    cases r
    · exact .inr (.inr ⟨_, hlen, rfl⟩)
    · exact .inr (.inr ⟨_, hlen, rfl⟩)
    · exact .inl rfl
  | init _ _ _ hst _ =>
    rw [hst]
    cases r
    · exact .inr (.inr ⟨_, hlen, rfl⟩)
    · exact .inr (.inr ⟨_, hlen, rfl⟩)
    · exact .inr (.inr ⟨_, hlen2, rfl⟩)

theorem View.accept_stepped (r : Rec) (env : Env) (v : View) (s : Dev) : r.Stepped env s (v.accept env s).st := by
  rcases v.accept_still_or env s with ⟨h1, h2, h3⟩ | ⟨k, a, m, t, ch, rfl⟩
  · cases r
    · exact .inl h1
    · exact .inl h2
    · exact .inl h3
  have hm : (hwmBytes m).length = slotSize := WaterMark.encode_length _
  have ht : (hwmBytes t).length = slotSize := WaterMark.encode_length _
  have hc : (chainIdEncode ch.toU32).length = slotSize := chainId_length _
  cases View.accept_setup env k a m t ch s with
  | none hst _ => rw [hst]; exact .inl rfl
  | key _ hst _ => rw [hst]; cases r <;> exact .inl rfl
  | main _ _ hst _ =>
    rw [hst]
    cases r
    · exact .inr (.inr ⟨_, hm, rfl⟩)
    · exact .inl rfl
    · exact .inl rfl
  | test _ _ _ hst _ =>
    rw [hst]
    cases r
    · exact .inr (.inr ⟨_, hm, rfl⟩)
    · exact .inr (.inr ⟨_, ht, rfl⟩)
    · exact .inl rfl
  | chain _ _ _ hst _ =>
    rw [hst]
    cases r
    · exact .inr (.inr ⟨_, hm, rfl⟩)
    · exact .inr (.inr ⟨_, ht, rfl⟩)
    · exact .inr (.inr ⟨_, hc, rfl⟩)

/-- An event writes each record at most once. -/
theorem Dev.step_stepped (r : Rec) (cfg : Config) (env : Env) (ev : Event) (s : Dev) :
    r.Stepped env s (s.step cfg env ev).1 := by
  cases s.step_cases cfg env ev with
  | still h _ => exact .inl (r.of_same h)
  | relaunch h _ _ =>
    right; left
    cases r
    · exact h.main
    · exact h.test
    · exact h.chain
  | accept v _ h _ _ =>
    have h1 : r.Stepped env s.idle (v.accept env s.idle).st := v.accept_stepped r env s.idle
    have h2 : r.of s.idle = r.of s := r.of_same s.idle_flash
    unfold Rec.Stepped at h1
    rw [h2] at h1
    exact Rec.of_stepped h1 (r.of_same h)
  | command buf rx c hrec h =>
    have hfl := (s.exec cfg env c (buf.getD 2 0) (buf.getD 3 0) (apduPayload buf)).deliver_flash
    rw [h] at hfl
    refine Rec.of_stepped ?_ (r.of_same hfl)
    cases s.exec_cases cfg env c (buf.getD 2 0) (buf.getD 3 0) (apduPayload buf) with
    | still p u hs _ => rw [hs.1]; cases r <;> exact .inl rfl
    | opened v p u u' ho _ _ hst _ =>
      left
      rw [hst]
      have h3 := (s.withUpload p u).show_flash env v
      cases r
      · exact h3.main
      · exact h3.test
      · exact h3.chain
    | reset p _ _ _ hr => rw [hr]; exact s.resetHwm_stepped r env _
    | auto hh u u' q2 first m ref k digest _ _ _ _ _ _ _ _ _ hst =>
      rw [hst]
      rcases (s.withUpload s.path u).autoSign_cases env hh digest m (specDecide m) (fun _ _ => specDecide_error) with
        hfa | ⟨b, w, _, _, hfa | ⟨_, _, _, _, _, hre⟩⟩
      · rw [hfa.1]
        cases r <;> exact .inl rfl
      · rw [hfa.1]
        cases r
        · exact .inr (.inr ⟨w.encode, w.encode_length, rfl⟩)
        · exact .inl rfl
        · exact .inl rfl
      · rw [hre]
        cases r
        · exact .inr (.inr ⟨w.encode, w.encode_length, rfl⟩)
        · exact .inl rfl
        · exact .inl rfl

/-- The contents of a record before and after each event of a history. -/
def Rec.transitions (r : Rec) (cfg : Config) (ms : List Moment) : List (List Bytes × List Bytes) :=
  ms.map (fun m => ((r.of m.st).pages, (r.of (m.next cfg)).pages))

theorem Store.Turned.step {r : Rec} {cfg : Config} {env : Env} {ev : Event} {s : Dev} {n m k : Nat}
    (h : (r.of s).Turned n m k) (hm : m + 1 < 2 ^ 64) (hf : (r.fate env).Sound) :
    ((r.of (s.step cfg env ev).1).pages = (r.of s).pages ∧ (r.of (s.step cfg env ev).1).Turned n (m + 1) k) ∨
    (∃ q, (r.of (s.step cfg env ev).1).pages = (r.of s).pages.set ((k + 1) % n) q ∧
      (r.of s).pages[(k + 1) % n]? ≠ some q ∧ (k + 1) % n < (r.of s).pages.length ∧
      (r.of (s.step cfg env ev).1).Turned n (m + 1) (k + 1)) := by
  rcases s.step_stepped r cfg env ev with he | he | ⟨b, hb, he⟩
  · rw [he]; exact .inl ⟨rfl, h.mono (by omega)⟩
  · rw [he]; exact .inl ⟨rfl, h.relaunch.mono (by omega)⟩
  · rw [he]; exact h.write hm hb hf

/-- What a history has done to a record, given the number of changes before. -/
theorem Store.Turned.run {r : Rec} {cfg : Config} {es : List (Env × Event)} {s : Dev} {n m k : Nat}
    (h : (r.of s).Turned n m k) (hm : m + es.length < 2 ^ 64) (hf : ∀ e ∈ es, (r.fate e.1).Sound) :
    (∀ t ∈ r.transitions cfg (s.trace cfg es), ∀ a b : Nat, t.1[a]? ≠ t.2[a]? → t.1[b]? ≠ t.2[b]? → a = b) ∧
    (∀ a, a < n → turns n a k + wornAt a (r.transitions cfg (s.trace cfg es)) =
      turns n a (k + worn (r.transitions cfg (s.trace cfg es)))) := by
  induction es generalizing s m k with
  | nil => exact ⟨by simp [Dev.trace, Rec.transitions], by simp [Dev.trace, Rec.transitions, wornAt, worn]⟩
  | cons e es ih =>
    simp only [List.length_cons] at hm
    have ht : r.transitions cfg (s.trace cfg (e :: es)) =
        ((r.of s).pages, (r.of (s.step cfg e.1 e.2).1).pages) ::
          r.transitions cfg ((s.step cfg e.1 e.2).1.trace cfg es) := rfl
    rw [ht]
    rcases h.step (cfg := cfg) (ev := e.2) (by omega) (hf e (by simp)) with ⟨hp, h'⟩ | ⟨q, hp, hq, hlt, h'⟩
    · obtain ⟨h1, h2⟩ := ih h' (by omega) (fun x hx => hf x (by simp [hx]))
      refine ⟨?_, ?_⟩
      · intro t ht a b ha hb
        rcases List.mem_cons.mp ht with rfl | ht
        · simp [hp] at ha
        · exact h1 t ht a b ha hb
      · intro a ha
        have := h2 a ha
        simp only [wornAt, worn, List.countP_cons, hp] at this ⊢
        simpa using this
    · obtain ⟨h1, h2⟩ := ih h' (by omega) (fun x hx => hf x (by simp [hx]))
      have hch : ∀ a : Nat, (r.of s).pages[a]? ≠ (r.of (s.step cfg e.1 e.2).1).pages[a]? ↔ (k + 1) % n = a := by
        intro a
        rw [hp]
        by_cases hka : (k + 1) % n = a
        · subst hka
          simp only [List.getElem?_set_self hlt, ne_eq, hq, not_false_eq_true]
        · rw [List.getElem?_set_ne hka]
          simp [hka]
      have hne : (r.of s).pages ≠ (r.of (s.step cfg e.1 e.2).1).pages := by
        intro he
        exact (hch _).mpr rfl (by rw [he])
      refine ⟨?_, ?_⟩
      · intro t ht a b ha hb
        rcases List.mem_cons.mp ht with rfl | ht
        · rw [← (hch a).mp ha, ← (hch b).mp hb]
        · exact h1 t ht a b ha hb
      · intro a ha
        have := h2 a ha
        simp only [wornAt, worn, List.countP_cons] at this ⊢
        rw [turns_succ ha] at this
        simp only [hch, decide_eq_true_eq, hne, ne_eq, not_false_eq_true, if_true] at this ⊢
        rw [Nat.add_right_comm k 1, Nat.add_assoc k] at this
        rw [← this]
        omega

/-- C95: whatever the host and the person holding the device do, the eight slots of each of the watermark and chain
records wear evenly: no event changes more than one slot of a record, no slot is ever more than one change ahead of
another, and none has had more than an eighth of the changes, rounded up. This holds across restarts and power losses
that the checksum detects. -/
theorem C95_even (r : Rec) (cfg : Config) (u : NewDevice) (es : List (Env × Event))
    (hf : ∀ e ∈ es, (r.fate e.1).Sound) (hlen : es.length < 2 ^ 64) :
    EvenlyWorn 8 (r.transitions cfg ((Dev.factory u).trace cfg es)) := by
  have h0 : (r.of (Dev.factory u)).Turned 8 0 0 := by
    cases r <;> exact .good (v := List.replicate slotSize 0) rfl (Nat.le_refl _) (.inl rfl) (StoreInv.fresh (by omega))
  obtain ⟨h1, h2⟩ := h0.run (cfg := cfg) (es := es) (by omega) hf
  have h3 : ∀ a, a < 8 → wornAt a (r.transitions cfg ((Dev.factory u).trace cfg es)) =
      turns 8 a (worn (r.transitions cfg ((Dev.factory u).trace cfg es))) := by
    intro a ha
    have := h2 a ha
    rwa [turns_zero (by omega), Nat.zero_add, Nat.zero_add] at this
  refine ⟨h1, ?_, ?_⟩
  · intro a b ha hb
    rw [h3 a ha, h3 b hb]
    exact turns_level ha
  · intro a ha
    rw [h3 a ha]
    exact turns_share ha

/-- C95: a record outlives eight times the changes that one slot endures: as long as it has been changed at most
`8 * endurance` times, no slot has been changed more than `endurance` times. -/
theorem C95_endurance (r : Rec) (cfg : Config) (u : NewDevice) (es : List (Env × Event))
    (hf : ∀ e ∈ es, (r.fate e.1).Sound) (hlen : es.length < 2 ^ 64) (endurance : Nat)
    (hw : worn (r.transitions cfg ((Dev.factory u).trace cfg es)) ≤ 8 * endurance) (a : Nat) (ha : a < 8) :
    wornAt a (r.transitions cfg ((Dev.factory u).trace cfg es)) ≤ endurance := by
  have := (C95_even r cfg u es hf hlen).share a ha
  omega

open Demo in
/-- Resetting the watermark twelve times, with a restart in between: the hypotheses hold, and the twelve changes fall on
all eight slots, on four of them twice. -/
example :
    let reset := apdu 0x06 0 0 [0, 0, 0, 9]
    let es := List.replicate 5 (fine, reset) ++ (fine, .relaunch) :: List.replicate 7 (fine, reset)
    let ts := Rec.main.transitions bakingApp (fresh.trace bakingApp es)
    (∀ e ∈ es, (Rec.main.fate e.1).Sound) ∧ worn ts = 12 ∧
      (List.range 8).map (fun a => wornAt a ts) = [1, 2, 2, 2, 2, 1, 1, 1] := by
  refine ⟨?_, ?_, ?_⟩
  · intro e he
    simp only [List.mem_append, List.mem_cons, List.mem_replicate] at he
    rcases he with ⟨_, rfl⟩ | rfl | ⟨_, rfl⟩ <;> trivial
  · decide +kernel
  · decide +kernel

end Tezos
