import Verif.Zui
import Verif.Props.Format
/-
Review navigation on the two-line device: C37.
-/
set_option linter.unusedSimpArgs false
namespace Tezos
open Spec

/-- The buttons of the device. -/
inductive Button where
  | left | right | both
  deriving DecidableEq, Repr

/-- Pressing buttons while one review stays pending, outside expert mode: the final state and every screen
displayed so far, or `none` once the review is no longer on the screen (approved, rejected or failed). -/
def uiRun (v : Viewer) : Zui → List Screen → List Button → Option (Zui × List Screen)
  | z, log, [] => some (z, log)
  | z, log, .left :: bs =>
    match z.left (some v) with
    | .shown z' => uiRun v z' (log ++ [z'.screen]) bs
    | _ => none
  | z, log, .right :: bs =>
    match z.right (some v) with
    | .shown z' => uiRun v z' (log ++ [z'.screen]) bs
    | _ => none
  | z, log, .both :: bs => if z.action = .nothing then uiRun v z log bs else none

/-- Page count announced for a text on this device. -/
def announcedPages (t : Bytes) : Nat := if 34 ≤ t.length then 1 + t.length / 34 else 1

/-- The title line of page `j` of `n`: the page is numbered if there are several and it fits. -/
def pageTitle (title : Bytes) (j n : Nat) : Bytes :=
  let numbered := title ++ ascii " [" ++ decimal (j + 1) ++ ascii "/" ++ decimal n ++ ascii "]"
  if 1 < n ∧ numbered.length ≤ 16 then numbered else title

/-- A screen that shows the title of an item and page `j` of its text, with its page number, on two lines. -/
def ShowsPage (f : Field) (j : Nat) (s : Screen) : Prop :=
  ∃ p l1 l2, (pagesOf 34 f.text)[j]? = some p ∧
    s = .review (pageTitle (asciify f.title) j (announcedPages f.text)) l1 l2 ∧ l1 ++ l2 = asciify p ∧
    l1.length ≤ 17 ∧ l2.length ≤ 17

theorem splitLines_append (t : Bytes) : (splitLines t).1 ++ (splitLines t).2 = t := by
  unfold splitLines; split <;> simp

theorem splitLines_length (t : Bytes) : (splitLines t).1.length ≤ 17 := by
  unfold splitLines lineSize
  split
  · simp
  · simp; omega

theorem splitLines_second {t : Bytes} (h : t.length ≤ 34) : (splitLines t).2.length ≤ 17 := by
  unfold splitLines lineSize
  split
  · simp; omega
  · simp

theorem asciify_length (t : Bytes) : (asciify t).length ≤ t.length := by
  unfold asciify
  rw [List.length_map]
  exact (List.takeWhile_prefix _).length_le

theorem pagesOf_le {t p : Bytes} (h : p ∈ pagesOf 34 t) : p.length ≤ 34 :=
  ((pagesOf_paging (by omega) t).last p h).1

theorem keyWithPage_eq (key : Bytes) (j n : Nat) : keyWithPage key j n = pageTitle key j n := by
  unfold keyWithPage pageTitle keySize
  simp only [List.length_append]
  by_cases h1 : n > 1
  · by_cases h2 : key.length < 18
    · rw [if_pos ⟨h1, h2⟩]
      congr 1
      rw [eq_iff_iff]
      omega
    · rw [if_neg (by tauto), if_neg (by omega)]
  · rw [if_neg (by tauto), if_neg (by tauto)]

theorem pageScreen_shows (f : Field) (p : Bytes) (j : Nat) (hj : (pagesOf 34 f.text)[j]? = some p) :
    ShowsPage f j (pageScreen (asciify f.title) (asciify p) j (announcedPages f.text)) := by
  unfold pageScreen
  rw [keyWithPage_eq]
  exact ⟨p, _, _, hj, rfl, splitLines_append _, splitLines_length _,
    splitLines_second ((asciify_length p).trans (pagesOf_le (List.mem_of_getElem? hj)))⟩

theorem handleUi_count {t : Bytes} (hs : t.length < 8636) {k : UInt8} {p : Bytes} {n : UInt8}
    (h : handleUi t messageSize k = .ok (p, n)) : n.toNat = announcedPages t := by
  unfold handleUi messageSize at h
  unfold announcedPages
  rw [if_neg (by omega)] at h
  simp only [Nat.reduceSub] at h
  split at h
  · rename_i hle
    split at h
    · simp at h
    · simp only [Except.ok.injEq, Prod.mk.injEq] at h
      rw [← h.2, if_pos hle]
      simp only [UInt8.toNat_add, UInt8.toNat_ofNat', UInt8.reduceToNat]
      omega
  · rename_i hle
    simp only [Except.ok.injEq, Prod.mk.injEq] at h
    rw [← h.2, if_neg hle]; rfl

theorem announcedPages_bounds {t : Bytes} (hs : t.length < 8636) :
    1 ≤ announcedPages t ∧ announcedPages t ≤ 254 := by
  unfold announcedPages; split <;> omega

theorem pagesOf_le_announced (t : Bytes) : (pagesOf 34 t).length ≤ announcedPages t := by
  by_cases h : t = []
  · subst h; simp [pagesOf, announcedPages]
  · rw [pagesOf_length (by omega) h]
    unfold announcedPages; split <;> omega

/-- The piece shown for page `k`. -/
theorem handleUi_piece {t : Bytes} {k : UInt8} {p : Bytes} {n : UInt8}
    (h : handleUi t messageSize k = .ok (p, n)) {q : Bytes} (hq : (pagesOf 34 t)[k.toNat]? = some q) : q = p := by
  obtain ⟨n', h'⟩ := (C36_pages 34 (by omega) t).2 k q hq
  unfold messageSize at h
  rw [h] at h'
  simp only [Except.ok.injEq, Prod.mk.injEq] at h'
  exact h'.1.symm

theorem renderItem_ok {v : Viewer} {i k : Nat} {key text : Bytes} {n : Nat}
    (h : renderItem v i k = .ok (key, text, n)) :
    ∃ f p m, v.item (UInt8.ofNat i) = .ok f ∧ handleUi f.text messageSize (UInt8.ofNat k) = .ok (p, m) ∧
      key = asciify f.title ∧ text = asciify p ∧ n = m.toNat := by
  unfold renderItem at h
  obtain ⟨f, hf, h⟩ := ebind_ok.mp h
  obtain ⟨⟨p, m⟩, hp, h⟩ := ebind_ok.mp h
  simp only [ePure, Except.ok.injEq, Prod.mk.injEq] at h
  exact ⟨f, p, m, hf, hp, h.1.symm, h.2.1.symm, h.2.2.symm⟩

/-- The page on which an update lands. -/
def landing (idx cnt : Nat) : Nat := if idx > cnt then cnt - 1 else idx

/-- A drawn item. -/
theorem updateLoop_shown {v : Viewer} {fuel : Nat} {z z' : Zui}
    (hs : ∀ f, v.item (UInt8.ofNat z.itemIdx) = .ok f → f.text.length < 8636)
    (h : updateLoop v fuel z = .shown z') :
    ∃ f p m, v.item (UInt8.ofNat z.itemIdx) = .ok f ∧
      handleUi f.text messageSize (UInt8.ofNat (landing z.pageIdx (announcedPages f.text))) = .ok (p, m) ∧
      z' = { z with
        pageIdx := landing z.pageIdx (announcedPages f.text)
        pageCount := announcedPages f.text
        screen := pageScreen (asciify f.title) (asciify p) (landing z.pageIdx (announcedPages f.text))
          (announcedPages f.text) } := by
  cases fuel with
  | zero => simp [updateLoop] at h
  | succ fuel =>
    unfold updateLoop at h
    split at h
    · simp at h
    · simp at h
    · simp at h
    · rename_i k0 t0 n0 h0
      obtain ⟨f, p0, m0, hf, hp0, -, -, rfl⟩ := renderItem_ok h0
      have hsf := hs f hf
      have hc0 := handleUi_count hsf hp0
      have hb := announcedPages_bounds hsf
      simp only [hc0] at h
      have hz : (if announcedPages f.text ≠ 0 ∧ z.pageIdx > announcedPages f.text then
            ({ z with pageCount := announcedPages f.text, pageIdx := announcedPages f.text - 1 } : Zui)
          else { z with pageCount := announcedPages f.text })
          = { z with pageCount := announcedPages f.text,
                     pageIdx := landing z.pageIdx (announcedPages f.text) } := by
        unfold landing
        by_cases hgt : z.pageIdx > announcedPages f.text
        · rw [if_pos ⟨by omega, hgt⟩, if_pos hgt]
        · rw [if_neg (by tauto), if_neg hgt]
      rw [hz] at h
      simp only at h
      split at h
      · simp at h
      · simp at h
      · simp at h
      · rename_i key text n h1
        obtain ⟨f', p, m, hf', hp, rfl, rfl, rfl⟩ := renderItem_ok h1
        rw [hf] at hf'
        simp only [Except.ok.injEq] at hf'
        subst hf'
        have hc := handleUi_count hsf hp
        rw [hc, if_neg (by omega)] at h
        simp only [Upd.shown.injEq] at h
        exact ⟨f, p, m, hf, hp, h.symm⟩

/-- Every page of an item has been displayed. -/
def Displayed (v : Viewer) (log : List Screen) (i : Nat) : Prop :=
  ∃ f, v.item (UInt8.ofNat i) = .ok f ∧ ∀ j < (pagesOf 34 f.text).length, ∃ s ∈ log, ShowsPage f j s

/-- The first `k` pages of an item have been displayed. -/
def DisplayedUpTo (v : Viewer) (log : List Screen) (i k : Nat) : Prop :=
  ∃ f, v.item (UInt8.ofNat i) = .ok f ∧
    ∀ j < k, j < (pagesOf 34 f.text).length → ∃ s ∈ log, ShowsPage f j s

theorem Displayed.mono {v : Viewer} {log log' : List Screen} {i : Nat} (h : Displayed v log i) :
    Displayed v (log ++ log') i := by
  obtain ⟨f, hf, hp⟩ := h
  refine ⟨f, hf, fun p hpm => ?_⟩
  obtain ⟨s, hs, h⟩ := hp p hpm
  exact ⟨s, by simp [hs], h⟩

theorem DisplayedUpTo.mono {v : Viewer} {log log' : List Screen} {i k : Nat} (h : DisplayedUpTo v log i k) :
    DisplayedUpTo v (log ++ log') i k := by
  obtain ⟨f, hf, hp⟩ := h
  refine ⟨f, hf, fun j hj hl => ?_⟩
  obtain ⟨s, hs, h⟩ := hp j hj hl
  exact ⟨s, by simp [hs], h⟩

/-- What holds whenever a review is on the screen. `n` is the number of announced items. -/
structure NavInv (v : Viewer) (n : Nat) (z : Zui) (log : List Screen) : Prop where
  count : z.itemCount = n + 1
  idx : z.itemIdx ≤ n + 1
  before : ∀ i < n, i < z.itemIdx → Displayed v log i
  here : z.itemIdx < n → ∃ f, v.item (UInt8.ofNat z.itemIdx) = .ok f ∧ z.pageCount = announcedPages f.text ∧
    z.pageIdx < 256 ∧ DisplayedUpTo v log z.itemIdx (z.pageIdx + 1)
  actions : n ≤ z.itemIdx → z.pageIdx = 0 ∧ z.pageCount = 1

/-- A drawn screen re-establishes the invariant if, for an item, its pages before the requested one have been
displayed, and the earlier items as well. -/
theorem NavInv.update {v : Viewer} {num : UInt8} (hn : v.numItems = .ok num)
    (hs : ∀ i < num.toNat, ∀ f, v.item (UInt8.ofNat i) = .ok f → f.text.length < 8636)
    {z z' : Zui} {log : List Screen} (hidx : z.itemIdx ≤ num.toNat + 1)
    (hbefore : ∀ i < num.toNat, i < z.itemIdx → Displayed v log i)
    (hhere : z.itemIdx < num.toNat →
      (z.pageIdx = 0 ∨ DisplayedUpTo v log z.itemIdx z.pageIdx ∨ Displayed v log z.itemIdx) ∧ z.pageIdx < 256)
    (h : reviewUpdate (some v) z = .shown z') : NavInv v num.toNat z' (log ++ [z'.screen]) := by
  unfold reviewUpdate at h
  simp only [hn] at h
  split at h
  · rename_i he
    simp only [Upd.shown.injEq] at h
    subst h
    refine ⟨rfl, hidx, fun i hi h2 => (hbefore i hi h2).mono, ?_, fun _ => ⟨rfl, rfl⟩⟩
    intro h2; simp only at h2; omega
  · split at h
    · simp only [Upd.shown.injEq] at h
      subst h
      refine ⟨rfl, hidx, fun i hi h2 => (hbefore i hi h2).mono, ?_, fun _ => ⟨rfl, rfl⟩⟩
      rename_i h1 h2
      intro h3; simp only at h3 h2; omega
    · rename_i h1 h2
      have hlt : z.itemIdx < num.toNat := by omega
      obtain ⟨f, p, m, hf, hp, rfl⟩ := updateLoop_shown (by exact hs z.itemIdx hlt) h
      obtain ⟨hh, h256⟩ := hhere hlt
      have hsf := hs z.itemIdx hlt f hf
      have hb := announcedPages_bounds hsf
      have hle := pagesOf_le_announced f.text
      refine ⟨rfl, hidx, fun i hi h2 => (hbefore i hi h2).mono, fun _ => ⟨f, hf, rfl, ?_, ?_⟩, ?_⟩
      · simp only [landing]; split <;> omega
      · refine ⟨f, hf, fun j hj hjl => ?_⟩
        obtain ⟨q, hq⟩ : ∃ q, (pagesOf 34 f.text)[j]? = some q := ⟨_, List.getElem?_eq_getElem hjl⟩
        simp only at hj
        by_cases hj2 : j = landing z.pageIdx (announcedPages f.text)
        · -- the page on the screen
          subst hj2
          have hl256 : landing z.pageIdx (announcedPages f.text) < 256 := by
            simp only [landing]; split <;> omega
          have hk : (UInt8.ofNat (landing z.pageIdx (announcedPages f.text))).toNat
              = landing z.pageIdx (announcedPages f.text) := by
            simp only [UInt8.toNat_ofNat']; omega
          have := handleUi_piece hp (q := q) (by rw [hk]; exact hq)
          subst this
          exact ⟨_, List.mem_append_right _ (List.mem_singleton.mpr rfl), pageScreen_shows f q _ hq⟩
        · have hj3 : j < landing z.pageIdx (announcedPages f.text) := by omega
          rcases hh with h0 | hup | hall
          · rw [h0] at hj3; simp [landing] at hj3
          · obtain ⟨f', hf', hall⟩ := hup
            rw [hf] at hf'
            simp only [Except.ok.injEq] at hf'
            subst hf'
            have hjp : j < z.pageIdx := by
              unfold landing at hj3; split at hj3 <;> omega
            obtain ⟨s, hs', h⟩ := hall j hjp hjl
            exact ⟨s, by simp [hs'], h⟩
          · obtain ⟨f', hf', hall⟩ := hall
            rw [hf] at hf'
            simp only [Except.ok.injEq] at hf'
            subst hf'
            obtain ⟨s, hs', h⟩ := hall j hjl
            exact ⟨s, by simp [hs'], h⟩
      · intro h3; simp only at h3; omega

theorem Displayed.of_upTo {v : Viewer} {log : List Screen} {i k : Nat} {f : Field}
    (hf : v.item (UInt8.ofNat i) = .ok f) (h : DisplayedUpTo v log i k) (hk : announcedPages f.text ≤ k) :
    Displayed v log i := by
  obtain ⟨f', hf', hp⟩ := h
  rw [hf] at hf'
  simp only [Except.ok.injEq] at hf'
  subst hf'
  refine ⟨f, hf, fun j hlt => ?_⟩
  have := pagesOf_le_announced f.text
  exact hp j (by omega) hlt

theorem NavInv.run {v : Viewer} {num : UInt8} (hn : v.numItems = .ok num)
    (hs : ∀ i < num.toNat, ∀ f, v.item (UInt8.ofNat i) = .ok f → f.text.length < 8636)
    (bs : List Button) {z z' : Zui} {log log' : List Screen} (hinv : NavInv v num.toNat z log)
    (h : uiRun v z log bs = some (z', log')) : NavInv v num.toNat z' log' := by
  induction bs generalizing z log with
  | nil => simp only [uiRun, Option.some.injEq, Prod.mk.injEq] at h; obtain ⟨rfl, rfl⟩ := h; exact hinv
  | cons b bs ih =>
    cases b with
    | both =>
      simp only [uiRun] at h
      split at h
      · exact ih hinv h
      · simp at h
    | left =>
      simp only [uiRun] at h
      split at h
      · rename_i z1 h1
        refine ih ?_ h
        unfold Zui.left Zui.pagingDecrease at h1
        split at h1
        · rename_i hp
          refine NavInv.update hn hs (by simpa using hinv.idx) (by simpa using hinv.before) ?_ h1
          intro hlt
          simp only at hlt ⊢
          obtain ⟨f, hf, hc, h256, hup⟩ := hinv.here hlt
          refine ⟨Or.inr (Or.inl ?_), by omega⟩
          obtain ⟨f', hf', hall⟩ := hup
          exact ⟨f', hf', fun j hj => hall j (by omega)⟩
        · split at h1
          · rename_i hp hi
            refine NavInv.update hn hs (by have := hinv.idx; simp only; omega) ?_ ?_ h1
            · intro i hi' hlt
              simp only at hlt
              exact hinv.before i hi' (by omega)
            · intro hlt
              simp only at hlt ⊢
              exact ⟨Or.inr (Or.inr (hinv.before _ hlt (by omega))), by omega⟩
          · rename_i hp hi
            refine NavInv.update hn hs hinv.idx hinv.before ?_ h1
            intro hlt
            exact ⟨Or.inl (by omega), by omega⟩
      · simp at h
    | right =>
      simp only [uiRun] at h
      split at h
      · rename_i z1 h1
        refine ih ?_ h
        unfold Zui.right Zui.pagingIncrease at h1
        split at h1
        · rename_i hp
          refine NavInv.update hn hs (by simpa using hinv.idx) (by simpa using hinv.before) ?_ h1
          intro hlt
          simp only at hlt ⊢
          obtain ⟨f, hf, hc, h256, hup⟩ := hinv.here hlt
          have hb := announcedPages_bounds (hs _ hlt f hf)
          exact ⟨Or.inr (Or.inl hup), by omega⟩
        · rename_i hp
          split at h1
          · rename_i hi
            have hc := hinv.count
            refine NavInv.update hn hs (by simp only; omega) ?_ ?_ h1
            · intro i hi' hlt
              simp only at hlt
              by_cases he : i = z.itemIdx
              · subst he
                obtain ⟨f, hf, hc, h256, hup⟩ := hinv.here hi'
                exact Displayed.of_upTo hf hup (by omega)
              · exact hinv.before i hi' (by omega)
            · intro hlt
              simp only
              exact ⟨Or.inl trivial, by omega⟩
          · rename_i hi
            refine NavInv.update hn hs hinv.idx hinv.before ?_ h1
            intro hlt
            have hc := hinv.count
            omega
      · simp at h

/-- Opening a review. -/
theorem NavInv.show {v : Viewer} {num : UInt8} (hn : v.numItems = .ok num)
    (hs : ∀ i < num.toNat, ∀ f, v.item (UInt8.ofNat i) = .ok f → f.text.length < 8636)
    {z0 z : Zui} (h : z0.showReview v = .shown z) : NavInv v num.toNat z [z.screen] := by
  have := NavInv.update (log := []) hn hs (by simp [Zui.pagingInit]) (by simp [Zui.pagingInit])
    (by simp [Zui.pagingInit]) h
  simpa using this

/-- **C37.** Outside expert mode: open a review announcing `num` items and press any buttons; if the review is
then on the approve item (where pressing both buttons approves), every page of every announced item has been on
the display, with the title of the item. Texts are assumed shorter than 254 screens, which all texts of the app
are (`C37_texts_fit`). -/
theorem C37_approval_after_every_page {v : Viewer} {num : UInt8} (hn : v.numItems = .ok num)
    (hs : ∀ i < num.toNat, ∀ f, v.item (UInt8.ofNat i) = .ok f → f.text.length < 8636)
    {z0 z1 z : Zui} {log : List Screen} (hshow : z0.showReview v = .shown z1) (bs : List Button)
    (hrun : uiRun v z1 [z1.screen] bs = some (z, log)) (happ : z.action = .approve) :
    ∀ i < num.toNat, ∃ f, v.item (UInt8.ofNat i) = .ok f ∧ IsPaging 34 f.text (pagesOf 34 f.text) ∧
      ∀ j < (pagesOf 34 f.text).length, ∃ s ∈ log, ShowsPage f j s := by
  have hinv := NavInv.run hn hs bs (NavInv.show hn hs hshow) hrun
  intro i hi
  have hidx : z.itemIdx = num.toNat := by
    unfold Zui.action at happ
    split at happ
    · rename_i h; rw [hinv.count] at h; omega
    · split at happ <;> simp at happ
  obtain ⟨f, hf, hp⟩ := hinv.before i hi (by omega)
  exact ⟨f, hf, pagesOf_paging (by omega) _, hp⟩

/-- A review of two items, the second of two pages. -/
def exampleViewer : Viewer where
  numItems := .ok 2
  item n := if n = 0 then .ok ⟨ascii "Type", ascii "Withdraw delegate"⟩
    else if n = 1 then .ok ⟨ascii "Source", ascii "tz1aSkwEot3L2kmUvcoxzjMomb9mvBNuzFK6"⟩ else .error .noData

/-- The screens of `exampleViewer` up to the approve item, with a step back on the way. -/
example :
    (match (Zui.init .small).showReview exampleViewer with
      | .shown z => (uiRun exampleViewer z [z.screen] [.right, .both, .left, .right, .right, .right]).map
          fun r => (r.1.action, r.2)
      | _ => none)
    = some (.approve,
      [.review (ascii "Type") (ascii "Withdraw delegate") [],
       .review (ascii "Source [1/2]") (ascii "tz1aSkwEot3L2kmUv") (ascii "coxzjMomb9mvBNuzF"),
       .review (ascii "Type") (ascii "Withdraw delegate") [],
       .review (ascii "Source [1/2]") (ascii "tz1aSkwEot3L2kmUv") (ascii "coxzjMomb9mvBNuzF"),
       .review (ascii "Source [2/2]") (ascii "K6") [],
       approveScreen]) := by decide +kernel

end Tezos
