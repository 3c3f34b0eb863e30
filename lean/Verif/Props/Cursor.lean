import Verif.Spec.Cursor
import Verif.Props.Live
/-
The position in a review on the whole device: C110.
-/
namespace Tezos
open Spec (Place place)

/-- The button as an event of the device. -/
def Button.event : Button → Event
  | .left => .left
  | .right => .right
  | .both => .both

/-- The buttons, each in its environment, as events of the device. -/
def presses (bs : List (Env × Button)) : List (Env × Event) := bs.map fun e => (e.1, e.2.event)

/-- The screens before the approval. -/
def screensOf (d : Display) (w : Viewer) (n : Nat) : List Screen :=
  match d with
  | .small => reviewScreens w n
  | .large => SeenX.please.screen :: (shownItems w n).map SeenX.screen

/-! ### The smaller display -/

/-- The rejection is on the display. -/
structure AtReject (num : UInt8) (z : Zui) : Prop where
  idx : z.itemIdx = num.toNat + 1
  count : z.itemCount = num.toNat + 1
  pageIdx : z.pageIdx = 0
  pages : z.pageCount = 1
  screen : z.screen = rejectScreen

/-- The screen at position `p` is on the display. -/
def AtStop (w : Viewer) (num : UInt8) (z : Zui) (p : Nat) : Prop :=
  (p < (reviewPages w num.toNat).length ∧ AtNth w num z p) ∨
  (p = (reviewPages w num.toNat).length ∧ AtApprove num z) ∨
  (p = (reviewPages w num.toNat).length + 1 ∧ AtReject num z)

theorem Legible.reject {v : Viewer} {num : UInt8} (hv : Legible v num) (z : Zui) (hi : z.itemIdx = num.toNat + 1) :
    ∃ z', reviewUpdate (some v) z = .shown z' ∧ AtReject num z' ∧ z'.expert = z.expert := by
  refine ⟨{ z with itemCount := num.toNat + 1, pageCount := 1, pageIdx := 0, screen := rejectScreen }, ?_,
    ⟨hi, rfl, rfl, rfl, rfl⟩, rfl⟩
  unfold reviewUpdate
  simp only [hv.count]
  rw [if_neg (by omega), if_pos hi]

theorem AtStop.right {w : Viewer} {num : UInt8} (hv : Legible w num) {z : Zui} {p : Nat} (h : AtStop w num z p) :
    ∃ z', z.right (some w) = .shown z' ∧ z'.expert = z.expert ∧
      AtStop w num z' (min (p + 1) ((reviewPages w num.toNat).length + 1)) := by
  rcases h with ⟨hp, h⟩ | ⟨rfl, h⟩ | ⟨rfl, h⟩
  · obtain ⟨z', h1, h2, ⟨h3, h4⟩ | ⟨h3, h4⟩⟩ := h.next hv
    · exact ⟨z', h1, h2, .inl ⟨by omega, by rwa [Nat.min_eq_left (by omega)]⟩⟩
    · exact ⟨z', h1, h2, .inr (.inl ⟨by omega, h4⟩)⟩
  · have hz : z.pagingIncrease = { z with itemIdx := z.itemIdx + 1, pageIdx := 0 } := by
      unfold Zui.pagingIncrease
      rw [if_neg (by rw [h.pageIdx, h.pages]; omega), if_pos ⟨by rw [h.count]; omega, by rw [h.idx, h.count]; omega⟩]
    obtain ⟨z', h1, h2, h3⟩ := hv.reject { z with itemIdx := z.itemIdx + 1, pageIdx := 0 } (by simp only [h.idx])
    exact ⟨z', by unfold Zui.right; rw [hz, h1], h3, .inr (.inr ⟨by omega, h2⟩)⟩
  · have hz : z.pagingIncrease = z := by
      unfold Zui.pagingIncrease
      rw [if_neg (by rw [h.pageIdx, h.pages]; omega), if_neg (by rw [h.idx, h.count]; omega)]
    obtain ⟨z', h1, h2, h3⟩ := hv.reject z h.idx
    exact ⟨z', by unfold Zui.right; rw [hz, h1], h3, .inr (.inr ⟨by omega, h2⟩)⟩

/-- The left button at the first page. -/
theorem AtNth.first {v : Viewer} {num : UInt8} (hv : Legible v num) {z : Zui} (h : AtNth v num z 0) :
    ∃ z', z.left (some v) = .shown z' ∧ z'.expert = z.expert ∧ AtNth v num z' 0 := by
  obtain ⟨i, j, f, h, hm⟩ := h
  have hin := h.inside
  obtain rfl : i = 0 := by
    cases i with
    | zero => rfl
    | succ i =>
      obtain ⟨g, hg, -⟩ := hv.items i (by omega)
      have := reviewPages_length_succ hg
      have := pagesOf_pos g.text
      omega
  obtain rfl : j = 0 := by omega
  have hz : z.pagingDecrease = z := by
    unfold Zui.pagingDecrease
    rw [if_neg (by simp [h.pageIdx]), if_neg (by simp [h.idx])]
  obtain ⟨z', h1, h2, h3⟩ := hv.drawn z (by rw [h.idx]; exact hin) (f := f) (by rw [h.idx]; exact h.item) h.page
    (.inl h.pageIdx)
  rw [h.idx] at h2
  exact ⟨z', by unfold Zui.left; rw [hz, h1], h3, 0, 0, f, h2, rfl⟩

theorem AtStop.left {w : Viewer} {num : UInt8} (hv : Legible w num) (hpos : 0 < num.toNat) {z : Zui} {p : Nat}
    (h : AtStop w num z p) : ∃ z', z.left (some w) = .shown z' ∧ z'.expert = z.expert ∧ AtStop w num z' (p - 1) := by
  have hlen := reviewPages_pos hv hpos
  rcases h with ⟨hp, h⟩ | ⟨rfl, h⟩ | ⟨rfl, h⟩
  · cases p with
    | zero =>
      obtain ⟨z', h1, h2, h3⟩ := h.first hv
      exact ⟨z', h1, h2, .inl ⟨hp, h3⟩⟩
    | succ p =>
      obtain ⟨z', h1, h2, h3⟩ := h.back hv
      exact ⟨z', h1, h2, .inl ⟨by omega, h3⟩⟩
  · obtain ⟨i, hi⟩ : ∃ i, num.toNat = i + 1 := ⟨_, (Nat.sub_add_cancel hpos).symm⟩
    obtain ⟨g, hg, -⟩ := hv.items i (by omega)
    obtain ⟨z', h1, h2, h3⟩ := h.left hv hi hg
    have hp := reviewPages_length_succ hg
    have hpp := pagesOf_pos g.text
    exact ⟨z', h1, h3, .inl ⟨by omega, i, _, g, h2, by rw [← hi] at hp; omega⟩⟩
  · have hz : z.pagingDecrease = { z with itemIdx := z.itemIdx - 1, pageIdx := 255 } := by
      unfold Zui.pagingDecrease
      rw [if_neg (by simp [h.pageIdx]), if_pos (by rw [h.idx]; omega)]
    obtain ⟨z', h1, h2, h3⟩ := hv.approve { z with itemIdx := z.itemIdx - 1, pageIdx := 255 } (by simp [h.idx])
    exact ⟨z', by unfold Zui.left; rw [hz, h1], h3, .inr (.inl ⟨by omega, h2⟩)⟩

theorem AtStop.action {w : Viewer} {num : UInt8} {z : Zui} {p : Nat} (h : AtStop w num z p) :
    z.action = if p = (reviewPages w num.toNat).length then .approve
      else if p = (reviewPages w num.toNat).length + 1 then .reject else .nothing := by
  rcases h with ⟨hp, i, j, f, h, -⟩ | ⟨rfl, h⟩ | ⟨rfl, h⟩
  · rw [if_neg (by omega), if_neg (by omega)]
    have := h.inside
    unfold Zui.action
    rw [if_neg (by rw [h.idx, h.count]; omega), if_neg (by rw [h.idx, h.count]; omega)]
  · rw [if_pos rfl, h.action]
  · rw [if_neg (by omega), if_pos rfl]
    unfold Zui.action
    rw [if_neg (by rw [h.idx, h.count]; omega), if_pos (by rw [h.idx, h.count])]

theorem AtStop.screen {w : Viewer} {num : UInt8} {z : Zui} {p : Nat} (h : AtStop w num z p) :
    (reviewScreens w num.toNat ++ [approveScreen, rejectScreen])[p]? = some z.screen := by
  have hl : (reviewScreens w num.toNat).length = (reviewPages w num.toNat).length := by simp [reviewScreens]
  rcases h with ⟨hp, h⟩ | ⟨rfl, h⟩ | ⟨rfl, h⟩
  · obtain ⟨f, j, hf, hs⟩ := h.page
    rw [List.getElem?_append_left (by omega), hs]
    simp [reviewScreens, hf]
  · rw [List.getElem?_append_right (by omega), hl, h.screen]
    simp
  · rw [List.getElem?_append_right (by omega), hl, h.screen]
    simp

theorem AtStop.review {w : Viewer} {num : UInt8} {z : Zui} {p : Nat} (h : AtStop w num z p) :
    ∃ k l1 l2, z.screen = .review k l1 l2 := by
  rcases h with ⟨-, h⟩ | ⟨-, h⟩ | ⟨-, h⟩
  · obtain ⟨f, j, -, hs⟩ := h.page
    exact ⟨_, _, _, hs⟩
  · exact ⟨_, _, _, h.screen⟩
  · exact ⟨_, _, _, h.screen⟩

theorem OnSmall.env {env env' : Env} (hc : env'.cr = env.cr) {w : Viewer} {v : View} {s : Dev}
    (h : OnSmall env w v s) : OnSmall env' w v s :=
  ⟨h.running, h.view, by rw [← h.viewer, Dev.viewer, Dev.viewer, hc], h.small, h.screen⟩

/-- One press at position `p`. -/
theorem OnSmall.press {cfg : Config} {env : Env} {w : Viewer} {v : View} {num : UInt8} (hv : Legible w num)
    (hpos : 0 < num.toNat) {s : Dev} (h : OnSmall env w v s) {p q : Nat} (hp : AtStop w num s.zui p) (b : Button)
    (hb : Place.press (reviewPages w num.toNat).length s.zui.expert (.at p) b = .at q) :
    ∃ z, s.step cfg env b.event = ({ s with zui := z }, .quiet) ∧ OnSmall env w v { s with zui := z } ∧
      AtStop w num z q ∧ z.expert = s.zui.expert := by
  cases b with
  | right =>
    simp only [Place.press, Place.at.injEq] at hb
    subst hb
    obtain ⟨z, h1, h2, h3⟩ := hp.right hv
    have hl : z.large = none := (Zui.reviewUpdate_large h1).trans
      ((Zui.pagingIncrease_large s.zui).trans h.small)
    refine ⟨z, ?_, ⟨h.running, h.view, h.viewer, hl, h3.review⟩, h3, h2⟩
    show s.step cfg env .right = _
    rw [h.right, show reviewUpdate (some w) s.zui.pagingIncrease = _ from h1]
    rfl
  | left =>
    simp only [Place.press, Place.at.injEq] at hb
    subst hb
    obtain ⟨z, h1, h2, h3⟩ := hp.left hv hpos
    have hl : z.large = none := (Zui.reviewUpdate_large h1).trans
      ((Zui.pagingDecrease_large s.zui).trans h.small)
    refine ⟨z, ?_, ⟨h.running, h.view, h.viewer, hl, h3.review⟩, h3, h2⟩
    show s.step cfg env .left = _
    rw [h.left, show reviewUpdate (some w) s.zui.pagingDecrease = _ from h1]
    rfl
  | both =>
    simp only [Place.press] at hb
    split at hb
    · cases hb
    split at hb
    · cases hb
    rename_i n1 n2
    simp only [Place.at.injEq] at hb
    obtain ⟨k, l1, l2, hscr⟩ := h.screen
    have hstep : s.step cfg env .both = s.pressBoth env := by simp only [Dev.step, h.running, if_true, hscr]
    have hact : s.zui.chosen = .nothing := by
      rw [Zui.chosen, h.small]
      simp only [hp.action, n1, n2, if_false]
    have hlt : p < (reviewPages w num.toNat).length := by
      rcases hp with ⟨hp, -⟩ | ⟨hp, -⟩ | ⟨hp, -⟩ <;> omega
    have hcount : s.zui.itemCount = num.toNat + 1 := by
      rcases hp with ⟨-, i, j, f, hp, -⟩ | ⟨hp, -⟩ | ⟨hp, -⟩
      · exact hp.count
      · omega
      · omega
    cases hx : s.zui.expert with
    | false =>
      rw [hx] at hb
      simp only [Bool.false_eq_true, if_false] at hb
      subst hb
      refine ⟨s.zui, ?_, h, hp, hx⟩
      show s.step cfg env .both = _
      rw [hstep]
      unfold Dev.pressBoth
      dsimp only
      rw [hact]
      dsimp only
      rw [if_neg (by simp [Zui.jumps, hx])]
    | true =>
      rw [hx] at hb
      simp only [if_true] at hb
      subst hb
      obtain ⟨z, h1, h2, h3⟩ := hv.approve { s.zui with itemIdx := s.zui.itemCount - 1, pageIdx := 0 }
        (by simp only [hcount]; omega)
      have hl : z.large = none := (Zui.reviewUpdate_large h1).trans h.small
      refine ⟨z, ?_, ⟨h.running, h.view, h.viewer, hl, _, _, _, h2.screen⟩, .inr (.inl ⟨rfl, h2⟩), h3.trans hx⟩
      show s.step cfg env .both = _
      rw [hstep]
      unfold Dev.pressBoth
      dsimp only
      rw [hact]
      dsimp only
      rw [if_pos (by simp [Zui.jumps, hx, h.running, h.small]), h.viewer, Zui.expertJump, h1]
      rfl

/-! ### The larger display -/

/-- The step at position `p` is on the larger display. -/
def AtStopX (w : Viewer) (num : UInt8) (x : ZuiX) (p : Nat) : Prop :=
  (p = 0 ∧ x.step = .title ∧ x.inside = false) ∨ (∃ i < num.toNat, p = i + 1 ∧ AtItem w num x i) ∨
  (p = num.toNat + 1 ∧ x.step = .approve ∧ AtEnd num x) ∨ (p = num.toNat + 2 ∧ x.step = .reject ∧ AtEnd num x)

theorem AtStopX.right {w : Viewer} {num : UInt8} (hv : FitsX w num) (hpos : 0 < num.toNat)
    (hok : ∀ i < num.toNat, ∃ f, w.item (UInt8.ofNat i) = .ok f) (hend : w.item num = .error .noData) {x : ZuiX} {p : Nat}
    (h : AtStopX w num x p) : ∃ x', x.right (some w) = .on x' ∧ AtStopX w num x' (min (p + 1) (num.toNat + 2)) := by
  rcases h with ⟨rfl, hs, hi⟩ | ⟨i, hi, rfl, h⟩ | ⟨rfl, hs, h⟩ | ⟨rfl, hs, h⟩
  · obtain ⟨f, hf⟩ := hok 0 hpos
    obtain ⟨x', h1, h2⟩ := title_right hv hs hi hf
    exact ⟨x', h1, .inr (.inl ⟨0, hpos, by omega, h2⟩)⟩
  · rcases Nat.lt_or_ge (i + 1) num.toNat with hlt | hge
    · obtain ⟨f, hf⟩ := hok (i + 1) hlt
      obtain ⟨x', h1, h2⟩ := h.next hv hi hf
      exact ⟨x', h1, .inr (.inl ⟨i + 1, hlt, by omega, h2⟩)⟩
    · obtain ⟨x', h1, h2, h3, h4, h5⟩ := h.last hv (by omega) hend
      exact ⟨x', h1, .inr (.inr (.inl ⟨by omega, h2, .inl h2, h3, h4, h5⟩))⟩
  · exact ⟨{ x with step := .reject }, by unfold ZuiX.right; rw [hs],
      .inr (.inr (.inr ⟨by omega, rfl, .inr rfl, h.inside, h.idx, h.page⟩))⟩
  · exact ⟨x, by unfold ZuiX.right; rw [hs], .inr (.inr (.inr ⟨by omega, hs, h⟩))⟩

theorem AtStopX.left {w : Viewer} {num : UInt8} (hv : FitsX w num) (hpos : 0 < num.toNat)
    (hok : ∀ i < num.toNat, ∃ f, w.item (UInt8.ofNat i) = .ok f) {x : ZuiX} {p : Nat} (h : AtStopX w num x p) :
    ∃ x', x.left (some w) = .on x' ∧ AtStopX w num x' (p - 1) := by
  rcases h with ⟨rfl, hs, hi⟩ | ⟨i, hi, rfl, h⟩ | ⟨rfl, hs, h⟩ | ⟨rfl, hs, h⟩
  · exact ⟨x, by unfold ZuiX.left; rw [hs], .inl ⟨rfl, hs, hi⟩⟩
  · cases i with
    | zero =>
      obtain ⟨x', h1, h2⟩ := h.home'
      exact ⟨x', h1, .inl ⟨rfl, h2⟩⟩
    | succ i =>
      obtain ⟨f, hf⟩ := hok i (by omega)
      obtain ⟨x', h1, h2⟩ := h.back hv hf
      exact ⟨x', h1, .inr (.inl ⟨i, by omega, rfl, h2⟩)⟩
  · have hd : x.pagingDecrease = { x with itemIdx := num.toNat - 1, pageIdx := 255 } := by
      unfold ZuiX.pagingDecrease
      rw [if_neg (by simp [h.page]), if_pos (by rw [h.idx]; omega), h.idx]
    obtain ⟨f, hf⟩ := hok (num.toNat - 1) (by omega)
    obtain ⟨x', h5, h6⟩ := AtItem.entered hv { x with itemIdx := num.toNat - 1, pageIdx := 255 } (.inr rfl) hf
    refine ⟨_, ?_, .inr (.inl ⟨num.toNat - 1, by omega, by omega, h6⟩)⟩
    unfold ZuiX.left
    rw [hs]
    show x.loopEnd (some w) = _
    unfold ZuiX.loopEnd
    rw [if_neg (by simp [h.inside]), hd, h5]
    rfl
  · exact ⟨{ x with step := .approve }, by unfold ZuiX.left; rw [hs],
      .inr (.inr (.inl ⟨by omega, rfl, .inl rfl, h.inside, h.idx, h.page⟩))⟩

theorem AtStopX.action {w : Viewer} {num : UInt8} {x : ZuiX} {p : Nat} (h : AtStopX w num x p) :
    x.action = if p = num.toNat + 1 then .approve else if p = num.toNat + 2 then .reject else .nothing := by
  unfold ZuiX.action
  rcases h with ⟨rfl, hs, -⟩ | ⟨i, hi, rfl, h⟩ | ⟨rfl, hs, -⟩ | ⟨rfl, hs, -⟩
  · rw [hs, if_neg (by omega), if_neg (by omega)]
  · rw [h.step, if_neg (by omega), if_neg (by omega)]
  · rw [hs, if_pos rfl]
  · rw [hs, if_neg (by omega), if_pos rfl]

theorem AtStopX.screen {w : Viewer} {num : UInt8} (hok : ∀ i < num.toNat, ∃ f, w.item (UInt8.ofNat i) = .ok f) {x : ZuiX}
    {p : Nat} (h : AtStopX w num x p) :
    (screensOf .large w num.toNat ++ [approveScreen, rejectScreen])[p]? = some x.screen := by
  have hl : (screensOf .large w num.toNat).length = num.toNat + 1 := by simp [screensOf, shownItems_length hok]
  rw [← ZuiX.seen_screen]
  rcases h with ⟨rfl, hs, -⟩ | ⟨i, hi, rfl, h⟩ | ⟨rfl, hs, -⟩ | ⟨rfl, hs, -⟩
  · rw [ZuiX.seen, hs]
    rfl
  · obtain ⟨f, hf, hseen⟩ := h.seen
    rw [List.getElem?_append_left (by omega), hseen, screensOf, List.getElem?_cons_succ, List.getElem?_map,
      shownItems_getElem hok hi hf]
    rfl
  · rw [List.getElem?_append_right (by omega), hl, ZuiX.seen, hs]
    simp [SeenX.screen]
  · rw [List.getElem?_append_right (by omega), hl, ZuiX.seen, hs]
    simp [SeenX.screen]

theorem OnLarge.press {cfg : Config} {env : Env} {w : Viewer} {v : View} {num : UInt8} (hv : FitsX w num)
    (hpos : 0 < num.toNat) (hok : ∀ i < num.toNat, ∃ f, w.item (UInt8.ofNat i) = .ok f)
    (hend : w.item num = .error .noData) {s : Dev} {l : LargeUi} (h : OnLarge env w v s l) {p q : Nat}
    (hp : AtStopX w num l.x p) (b : Button) (hb : Place.press (num.toNat + 1) false (.at p) b = .at q) :
    ∃ z l', s.step cfg env b.event = ({ s with zui := z }, .quiet) ∧ OnLarge env w v { s with zui := z } l' ∧
      AtStopX w num l'.x q ∧ z.screen = (if b = .both then s.zui.screen else l'.x.screen) ∧
      (b = .both → l' = l) := by
  cases b with
  | right =>
    simp only [Place.press, Place.at.injEq] at hb
    subst hb
    obtain ⟨x, h1, h2⟩ := hp.right hv hpos hok hend
    exact ⟨s.zui.atStep l x, _, h.on_right h1, h.at x, h2, rfl, fun h => by cases h⟩
  | left =>
    simp only [Place.press, Place.at.injEq] at hb
    subst hb
    obtain ⟨x, h1, h2⟩ := hp.left hv hpos hok
    exact ⟨s.zui.atStep l x, _, by show s.step cfg env .left = _; rw [h.left, h1]; rfl, h.at x, h2, rfl,
      fun h => by cases h⟩
  | both =>
    simp only [Place.press] at hb
    split at hb
    · cases hb
    split at hb
    · cases hb
    rename_i n1 n2
    simp only [Bool.false_eq_true, if_false, Place.at.injEq] at hb
    subst hb
    have hx : l.x.action = .nothing := by rw [hp.action, if_neg n1, if_neg n2]
    exact ⟨s.zui, l, h.nothing hx, h, hp, rfl, fun _ => rfl⟩

/-! ### C110 -/

/-- How many screens come before the approval. -/
def stops (d : Display) (w : Viewer) (num : UInt8) : Nat := (screensOf d w num.toNat).length

theorem place_at {n : Nat} {jump : Bool} {bs : List Button} {x : Place} {p : Nat}
    (h : bs.foldl (Place.press n jump) x = .at p) : ∃ q, x = .at q := by
  induction bs generalizing x with
  | nil => exact ⟨p, h⟩
  | cons b bs ih =>
    obtain ⟨q, hq⟩ := ih h
    cases x with
    | «at» r => exact ⟨r, rfl⟩
    | approved => simp [Place.press] at hq
    | rejected => simp [Place.press] at hq

theorem OnSmall.presses {cfg : Config} {w : Viewer} {v : View} {num : UInt8} (hv : Legible w num) (hpos : 0 < num.toNat)
    {cr : Crypto} (bs : List (Env × Button)) (hb : ∀ e ∈ bs, e.1.cr = cr) {env : Env} (hc : env.cr = cr) {s : Dev}
    (h : OnSmall env w v s) {p q : Nat} (hp : AtStop w num s.zui p)
    (hq : (bs.map Prod.snd).foldl (Place.press (reviewPages w num.toNat).length s.zui.expert) (.at p) = .at q) :
    ∃ z, s.run cfg (Tezos.presses bs) = ({ s with zui := z }, bs.map fun _ => .quiet) ∧
      OnSmall env w v { s with zui := z } ∧ AtStop w num z q := by
  induction bs generalizing s p with
  | nil =>
    simp only [List.map_nil, List.foldl_nil, Place.at.injEq] at hq
    subst hq
    exact ⟨s.zui, rfl, h, hp⟩
  | cons e bs ih =>
    simp only [List.map_cons, List.foldl_cons] at hq
    obtain ⟨r, hr⟩ := place_at hq
    rw [hr] at hq
    have he := hb e (List.mem_cons_self ..)
    obtain ⟨z, h1, h2, h3, h4⟩ := (h.env (env' := e.1) (he.trans hc.symm)).press (cfg := cfg) hv hpos hp e.2 hr
    obtain ⟨z', h5, h6, h7⟩ := ih (fun x hx => hb x (List.mem_cons_of_mem _ hx)) (s := { s with zui := z })
      (h2.env (hc.trans he.symm)) h3 (by rw [h4]; exact hq)
    refine ⟨z', ?_, h6, h7⟩
    simp only [Tezos.presses, List.map_cons, Dev.run, h1]
    exact congrArg (fun y : Dev × List Output => (y.1, Output.quiet :: y.2)) h5

theorem OnLarge.presses {cfg : Config} {w : Viewer} {v : View} {num : UInt8} (hv : FitsX w num) (hpos : 0 < num.toNat)
    (hok : ∀ i < num.toNat, ∃ f, w.item (UInt8.ofNat i) = .ok f) (hend : w.item num = .error .noData)
    {cr : Crypto} (bs : List (Env × Button)) (hb : ∀ e ∈ bs, e.1.cr = cr) {env : Env} (hc : env.cr = cr) {s : Dev}
    {l : LargeUi} (h : OnLarge env w v s l) {p q : Nat} (hp : AtStopX w num l.x p) (hscr : s.zui.screen = l.x.screen)
    (hq : (bs.map Prod.snd).foldl (Place.press (num.toNat + 1) false) (.at p) = .at q) :
    ∃ z l', s.run cfg (Tezos.presses bs) = ({ s with zui := z }, bs.map fun _ => .quiet) ∧
      OnLarge env w v { s with zui := z } l' ∧ AtStopX w num l'.x q ∧ z.screen = l'.x.screen := by
  induction bs generalizing s l p with
  | nil =>
    simp only [List.map_nil, List.foldl_nil, Place.at.injEq] at hq
    subst hq
    exact ⟨s.zui, l, rfl, h, hp, hscr⟩
  | cons e bs ih =>
    simp only [List.map_cons, List.foldl_cons] at hq
    obtain ⟨r, hr⟩ := place_at hq
    rw [hr] at hq
    have he := hb e (List.mem_cons_self ..)
    obtain ⟨z, l', h1, h2, h3, h4, h5⟩ :=
      (h.env (env' := e.1) (he.trans hc.symm)).press (cfg := cfg) hv hpos hok hend hp e.2 hr
    have h4' : z.screen = l'.x.screen := by
      rw [h4]
      split
      · rename_i hb
        rw [h5 hb, hscr]
      · rfl
    obtain ⟨z', l2, h6, h7⟩ := ih (fun x hx => hb x (List.mem_cons_of_mem _ hx)) (s := { s with zui := z })
      (h2.env (hc.trans he.symm)) h3 h4' hq
    refine ⟨z', l2, ?_, h7⟩
    simp only [Tezos.presses, List.map_cons, Dev.run, h1]
    exact congrArg (fun y : Dev × List Output => (y.1, Output.quiet :: y.2)) h6

/-- Whether a review is read to its end, on this display: `num` items are announced and can be displayed, and on the
larger display there is nothing after them. -/
structure DisplayableOn (d : Display) (w : Viewer) (num : UInt8) : Prop where
  count : w.numItems = .ok num
  pos : 0 < num.toNat
  items : ∀ i < num.toNat, ∃ f, w.item (UInt8.ofNat i) = .ok f
  ends : d = .large → w.item num = .error .noData

/-- **C110.** A review that a command brings to the display, and all items of which can be displayed, is read as one turns
pages. Whatever buttons the user presses, as long as they have not chosen: only the display changes, nothing is answered,
and the screen is the one at the position that the presses lead to, where the right button goes one screen forward, the
left button one screen back, and both buttons leave it (or, on the smaller display in expert mode, go to the approval).
There, both buttons approve the review exactly at the approval, and reject it exactly at the rejection. -/
theorem C110_cursor (cfg : Config) (m : Moment) (v : View) (d : Display) (hd : m.st.zui.display = d) (hs : m.env.cr.Sized)
    (ho : m.Opens cfg v) (hon : (m.next cfg).OnScreen) (env : Env) (hc : env.cr = m.env.cr) (w : Viewer)
    (hw : w = v.viewer env.cr (m.next cfg).upl.buf) (num : UInt8) (hr : DisplayableOn d w num) (bs : List (Env × Button))
    (hb : ∀ e ∈ bs, e.1.cr = env.cr) (p : Nat)
    (hp : place (stops d w num) (d = .small ∧ m.st.zui.expert = true) (bs.map Prod.snd) = .at p) :
    ∃ z, (m.next cfg).run cfg (presses bs) = ({ m.next cfg with zui := z }, bs.map fun _ => .quiet) ∧
      (screensOf d w num.toNat ++ [approveScreen, rejectScreen])[p]? = some z.screen ∧
      (Approves { m.next cfg with zui := z } .both v ↔ p = stops d w num) ∧
      (Rejects { m.next cfg with zui := z } .both v ↔ p = stops d w num + 1) := by
  obtain ⟨hn, hpos, hi, hend⟩ := hr
  have hview : (m.next cfg).viewer env = some w := by
    show Option.map _ (m.next cfg).view = _
    rw [ho.view, hw]
    rfl
  have key : ∀ (z : Zui) (n : Nat), (∃ k l1 l2, z.screen = .review k l1 l2) →
      z.chosen = (if p = n then .approve else if p = n + 1 then .reject else .nothing) →
      (Approves { m.next cfg with zui := z } .both v ↔ p = n) ∧
      (Rejects { m.next cfg with zui := z } .both v ↔ p = n + 1) := by
    intro z n hscr hch
    constructor
    · constructor
      · intro h
        have h1 : z.chosen = .approve := h.action
        rw [hch] at h1
        by_contra h2
        rw [if_neg h2] at h1
        split at h1 <;> cases h1
      · intro h
        exact ⟨hon.1, rfl, hscr, by show z.chosen = _; rw [hch, if_pos h], ho.view⟩
    · constructor
      · intro h
        have h1 : z.chosen = .reject := h.action
        rw [hch] at h1
        split at h1
        · cases h1
        split at h1
        · assumption
        · cases h1
      · intro h
        exact ⟨hon.1, rfl, hscr, by show z.chosen = _; rw [hch, if_neg (by omega), if_pos h], ho.view⟩
  cases d with
  | small =>
    rw [Zui.display_small] at hd
    obtain ⟨buf, rx, c, p', u, -, hop, -, hmem⟩ := ho.memory
    have hl : Legible w num := ⟨hn, fun i h => by
      obtain ⟨f, hf⟩ := hi i h
      refine ⟨f, hf, hop.uneven hs hmem hs (UInt8.ofNat i) f ?_⟩
      rw [← hf, hw, hc]⟩
    have hshow := ho.shown hon
    rw [← hc, ← hw, Zui.openReview, hd] at hshow
    have hd' : (m.next cfg).zui.large = none := (Zui.reviewUpdate_large hshow).trans hd
    obtain ⟨z1, h1, h2, hx⟩ := hl.opens hpos m.st.zui
    replace h1 := hshow.symm.trans h1
    cases h1
    have hst : stops .small w num = (reviewPages w num.toNat).length := by simp [stops, screensOf, reviewScreens]
    have hon' : OnSmall env w v (m.next cfg) := ⟨hon.1, ho.view, hview, hd', hon.2⟩
    rw [hst] at hp
    simp only [true_and, Bool.decide_eq_true, ← hx] at hp
    obtain ⟨z, h3, h4, h5⟩ := hon'.presses (cfg := cfg) hl hpos bs hb rfl (.inl ⟨reviewPages_pos hl hpos, h2⟩) hp
    rw [hst]
    refine ⟨z, h3, h5.screen, key z _ h5.review ?_⟩
    have hz : z.large = none := h4.small
    rw [Zui.chosen, hz]
    exact h5.action
  | large =>
    have hfit : FitsX w num := by
      rw [hw] at hn ⊢
      exact C73_reviews_fit cfg m v hs ho env.cr (hc ▸ hs) _ num hn
    obtain ⟨l, h1, h2, h3⟩ := ho.large hd hon hw
    have hst : stops .large w num = num.toNat + 1 := by simp [stops, screensOf, shownItems_length hi]
    have hscr : (m.next cfg).zui.screen = l.x.screen := by
      have hlarge := h1.large
      obtain ⟨l0, hl0⟩ := Zui.display_large.mp hd
      have hshow := ho.shown hon
      rw [Zui.openReview, hl0] at hshow
      simp only [Upd.shown.injEq] at hshow
      rw [← hshow] at hlarge ⊢
      cases hlarge
      rfl
    rw [hst] at hp
    simp only [reduceCtorEq, false_and, decide_false] at hp
    obtain ⟨z, l', h4, h5, h6, h7⟩ := h1.presses (cfg := cfg) hfit hpos hi (hend rfl) bs hb rfl (.inl ⟨rfl, h2, h3⟩) hscr hp
    rw [hst]
    refine ⟨z, h4, by rw [h7]; exact h6.screen hi, key z _ h5.screen ?_⟩
    have hz : z.large = some l' := h5.large
    rw [Zui.chosen, hz]
    exact h6.action

/-! ### Simple walks -/

theorem place_append {n : Nat} {jump : Bool} (as bs : List Button) {p : Nat} (h : place n jump as = .at p) :
    place n jump (as ++ bs) = bs.foldl (Place.press n jump) (.at p) := by
  rw [place, List.foldl_append]
  exact congrArg (fun x => bs.foldl (Place.press n jump) x) h

theorem place_rights (n : Nat) (jump : Bool) (k : Nat) : place n jump (List.replicate k .right) = .at (min k (n + 1)) := by
  induction k with
  | zero => simp [place]
  | succ k ih =>
    rw [List.replicate_succ', place_append _ _ ih]
    simp only [List.foldl_cons, List.foldl_nil, Place.press, Place.at.injEq]
    omega

theorem place_rights_left (n : Nat) (jump : Bool) (k : Nat) :
    place n jump (List.replicate k .right ++ [.left]) = .at (min k (n + 1) - 1) := by
  rw [place_append _ _ (place_rights n jump k)]
  rfl

end Tezos
