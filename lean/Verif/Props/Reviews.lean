import Verif.Props.ZuiX
import Verif.Props.Dispatch
import Verif.Props.Keys
import Verif.Scenario
/-
C37 on the device: what the user has seen when a review is approved.
-/
set_option linter.unusedSimpArgs false
namespace Tezos
open Spec

/-! ### C37 along histories -/

/-- A review is on the screen of the running app. -/
def Dev.OnScreen (s : Dev) : Prop := s.running = true ∧ ∃ k l1 l2, s.zui.screen = .review k l1 l2

theorem Dev.onError_screen {c : Bool} {f : XError → XError} {s : Dev} {v : View}
    (h : (s.onError c f).1.view = some v) : (s.onError c f).1.zui.screen = s.zui.screen := by
  unfold Dev.onError at h ⊢
  split
  · rename_i hc
    rw [if_pos hc, s.acceptError_view] at h
    cases h
  · rfl

/-- A review that is on the screen after a calm event that left it pending was there before. -/
theorem Dev.step_screen_back {cfg : Config} {env : Env} {ev : Event} {s : Dev} {v : View}
    (hb : ev.packet cfg.build = none) (hop : ∀ w, ¬ OpensAt cfg env s ev w (s.step cfg env ev).1)
    (hv : (s.step cfg env ev).1.view = some v) (h : (s.step cfg env ev).1.OnScreen) : s.OnScreen := by
  obtain ⟨hr, k, l1, l2, hs⟩ := h
  by_cases hev : ∃ buf rx, ev = .apdu buf rx
  · obtain ⟨buf, rx, rfl⟩ := hev
    refine ⟨?_, k, l1, l2, ?_⟩
    · cases hrun : s.running with
      | true => rfl
      | false =>
        simp only [Dev.step, hrun, Bool.false_eq_true, if_false] at hr
    · rw [← (Dev.apdu_calm hb hop hv).2]
      exact hs
  have hb : ∀ buf rx, ev ≠ .apdu buf rx := fun buf rx h => hev ⟨buf, rx, h⟩
  by_cases hrun : s.running = true
  · refine ⟨hrun, ?_⟩
    cases hscr : s.zui.screen with
    | review k l1 l2 => exact ⟨k, l1, l2, rfl⟩
    | idle =>
      exfalso
      cases ev with
      | apdu buf rx => exact absurd rfl (hb buf rx)
      | relaunch => cases hv
      | expert =>
        simp only [Dev.step, hrun, hscr] at hs
        split at hs
        · cases hs
        · rw [hscr] at hs
          cases hs
      | _ =>
        simp only [Dev.step, hrun, if_true, hscr] at hs
        cases hs
    | error =>
      exfalso
      cases ev with
      | apdu buf rx => exact absurd rfl (hb buf rx)
      | relaunch => cases hv
      | expert =>
        simp only [Dev.step, hrun, hscr] at hs
        split at hs
        · cases hs
        · rw [hscr] at hs
          cases hs
      | _ =>
        simp only [Dev.step, hrun, if_true, hscr] at hs hv
        rw [Dev.onError_screen hv, hscr] at hs
        cases hs
  · exfalso
    cases ev with
    | apdu buf rx => exact absurd rfl (hb buf rx)
    | relaunch => cases hv
    | _ =>
      simp only [Dev.step, hrun, false_and, if_false] at hr
      rw [if_neg (by simp [hrun])] at hr
      exact hrun hr

theorem Dev.run_screen_back {cfg : Config} {v : View} {es : List (Env × Event)} {s : Dev}
    (hb : ∀ x ∈ s.trace cfg es, x.Calm cfg ∧ x.st.view = some v)
    (hv : (s.run cfg es).1.view = some v) (hon : (s.run cfg es).1.OnScreen) : s.OnScreen := by
  induction es generalizing s with
  | nil => exact hon
  | cons e es ih =>
    have hvn : (s.step cfg e.1 e.2).1.view = some v := by
      cases es with
      | nil => exact hv
      | cons e' es' => exact (hb _ (List.mem_cons_of_mem _ (List.mem_cons_self ..))).2
    have hc := (hb ⟨s, e.1, e.2, (s.step cfg e.1 e.2).2⟩ (by simp [Dev.trace])).1
    exact Dev.step_screen_back hc.1 hc.2 hvn
      (ih (s := (s.step cfg e.1 e.2).1) (fun x hx => hb x (List.mem_cons_of_mem _ hx)) hv hon)

/-- What the review must be for the larger display: the items it announces are there, their texts fit, and a failure to
count them is reported as such. -/
structure Viewer.Fit (w : Viewer) : Prop where
  fits : ∀ num, w.numItems = .ok num → FitsX w num
  counted : w.numItems ≠ .error .noData

/-- What a step of the review on the larger display looks like. -/
def SeenX.screen : SeenX → Screen
  | .please => .review (ascii "Please") (ascii "review") []
  | .item title text => .review title text []
  | .approve => approveScreen
  | .reject => rejectScreen

theorem ZuiX.seen_screen (x : ZuiX) : x.seen.screen = x.screen := by
  unfold ZuiX.seen ZuiX.screen
  cases x.step <;> rfl

/-- The whole item on one screen, as the larger display has it. -/
def ShowsWhole (f : Field) (s : Screen) : Prop := s = .review (asciify f.title) (asciify f.text) []

/-- Where a review can be on either display, and what was displayed before. -/
def UiInv (w : Viewer) (z : Zui) (log : List Screen) : Prop :=
  match z.large with
  | none => ∃ num, w.numItems = .ok num ∧ NavInv w num.toNat z log
  | some l => (l.x.step = .title ∧ l.x.inside = false) ∨
      ∃ num seen, w.numItems = .ok num ∧ InvX w num l.x seen ∧ ∀ s ∈ seen, s.screen ∈ log

theorem Zui.pagingInit_large (z : Zui) : z.pagingInit.large = z.large := rfl

theorem Zui.pagingIncrease_large (z : Zui) : z.pagingIncrease.large = z.large := by
  unfold Zui.pagingIncrease
  split
  · rfl
  · split <;> rfl

theorem Zui.pagingDecrease_large (z : Zui) : z.pagingDecrease.large = z.large := by
  unfold Zui.pagingDecrease
  split
  · rfl
  · split <;> rfl

theorem Zui.reviewUpdate_large {v : Option Viewer} {z z' : Zui} (h : reviewUpdate v z = .shown z') :
    z'.large = z.large := by
  have loop : ∀ (w : Viewer) fuel (z z' : Zui), updateLoop w fuel z = .shown z' → z'.large = z.large := by
    intro w fuel
    induction fuel with
    | zero => intro z z' h; cases h
    | succ n ih =>
      intro z z' h
      unfold updateLoop at h
      split at h
      · cases h
      · cases h
      · cases h
      · dsimp only at h
        split at h
        · cases h
        · cases h
        · cases h
        · split at h
          · refine (ih _ _ h).trans ((Zui.pagingIncrease_large _).trans ?_)
            dsimp only
            split <;> rfl
          · cases h
            dsimp only
            split <;> rfl
  unfold reviewUpdate at h
  split at h
  · cases h
  · split at h
    · cases h
    · cases h
    · dsimp only at h
      split at h
      · cases h; rfl
      · split at h
        · cases h; rfl
        · exact (loop _ _ _ _ h).trans rfl

theorem Zui.ofResX_shown {z z' : Zui} {l : LargeUi} {e : XError} {r : ResX} (h : z.ofResX l e r = .shown z') :
    ∃ x, r = .on x ∧ z' = z.atStep l x := by
  cases r <;> cases h
  exact ⟨_, rfl, rfl⟩

theorem reviewUpdate_numItems {w : Viewer} {z z' : Zui} (h : reviewUpdate (some w) z = .shown z') :
    ∃ num, w.numItems = .ok num := by
  unfold reviewUpdate at h
  dsimp only at h
  split at h
  · cases h
  · cases h
  · rename_i num hn
    exact ⟨num, hn⟩

theorem UiInv.start {w : Viewer} (hw : w.Short) {z z' : Zui} (h : z.openReview w = .shown z') :
    UiInv w z' [z'.screen] := by
  unfold Zui.openReview at h
  split at h
  · rename_i hz
    obtain ⟨num, hn⟩ := reviewUpdate_numItems h
    have hl : z'.large = none := (Zui.reviewUpdate_large h).trans hz
    unfold UiInv
    rw [hl]
    refine ⟨num, hn, NavInv.show hn (fun i _ f hf => ?_) h⟩
    have := hw _ f hf
    omega
  · cases h
    exact .inl ⟨rfl, rfl⟩

theorem UiInv.move {w : Viewer} (hw : w.Short) (hk : w.Fit) {z z' : Zui} {log : List Screen} (hz : UiInv w z log)
    (h : z.goLeft (some w) = .shown z' ∨ z.goRight (some w) = .shown z') : UiInv w z' (log ++ [z'.screen]) := by
  cases hlg : z.large with
  | none =>
    have hz : ∃ num, w.numItems = .ok num ∧ NavInv w num.toNat z log := by
      unfold UiInv at hz
      rw [hlg] at hz
      exact hz
    obtain ⟨num, hn, hnav⟩ := hz
    have hs : ∀ i < num.toNat, ∀ f, w.item (UInt8.ofNat i) = .ok f → f.text.length < 8636 := by
      intro i _ f hf
      have := hw _ f hf
      omega
    simp only [Zui.goLeft, Zui.goRight, hlg] at h
    have hl : z'.large = none := by
      rcases h with h | h
      · exact (Zui.reviewUpdate_large h).trans ((Zui.pagingDecrease_large z).trans hlg)
      · exact (Zui.reviewUpdate_large h).trans ((Zui.pagingIncrease_large z).trans hlg)
    unfold UiInv
    rw [hl]
    refine ⟨num, hn, ?_⟩
    rcases h with h | h
    · exact NavInv.run hn hs [.left] hnav (by simp only [uiRun, h])
    · exact NavInv.run hn hs [.right] hnav (by simp only [uiRun, h])
  | some l =>
    have hz : (l.x.step = .title ∧ l.x.inside = false) ∨
        ∃ num seen, w.numItems = .ok num ∧ InvX w num l.x seen ∧ ∀ s ∈ seen, s.screen ∈ log := by
      unfold UiInv at hz
      rw [hlg] at hz
      exact hz
    simp only [Zui.goLeft, Zui.goRight, hlg] at h
    obtain ⟨x, hx, rfl⟩ : ∃ x, (l.x.right (some w) = .on x ∨ l.x.left (some w) = .on x) ∧ z' = z.atStep l x := by
      rcases h with h | h
      · obtain ⟨x, h1, h2⟩ := Zui.ofResX_shown h
        exact ⟨x, .inr h1, h2⟩
      · obtain ⟨x, h1, h2⟩ := Zui.ofResX_shown h
        exact ⟨x, .inl h1, h2⟩
    have step : ∀ num seen, w.numItems = .ok num → InvX w num l.x seen → (∀ s ∈ seen, s.screen ∈ log) →
        UiInv w (z.atStep l x) (log ++ [(z.atStep l x).screen]) := by
      intro num seen hn hi hs
      refine .inr ⟨num, seen ++ [x.seen], hn, hi.move (hk.fits num hn) hx, fun s hmem => ?_⟩
      rcases List.mem_append.mp hmem with hm | hm
      · exact List.mem_append_left _ (hs s hm)
      · rw [List.mem_singleton.mp hm]
        exact List.mem_append_right _ (List.mem_singleton.mpr x.seen_screen)
    rcases hz with ⟨ht, hi⟩ | ⟨num, seen, hn, hi, hs⟩
    · cases hn : w.numItems with
      | ok num =>
        exact step num [] hn ⟨fun _ => hi, (fun h => by rw [ht] at h; cases h),
          (fun h => by rw [ht] at h; rcases h with h | h <;> cases h)⟩ (fun s hs => by cases hs)
      | error e =>
        left
        rcases hx with hx | hx
        · exfalso
          simp only [ZuiX.right, ht, ZuiX.loopStart, hi, Bool.false_eq_true, if_false, reviewUpdateX, hn] at hx
          cases e with
          | noData => exact hk.counted hn
          | _ => cases hx
        · simp only [ZuiX.left, ht, ResX.on.injEq] at hx
          subst hx
          exact ⟨ht, hi⟩
    · exact step num seen hn hi hs

/-- When both buttons approve, every item has been on the display. -/
theorem UiInv.approved {w : Viewer} {z : Zui} {log : List Screen} (hz : UiInv w z log) (ha : z.chosen = .approve) :
    ∃ num, w.numItems = .ok num ∧ ∀ i < num.toNat, ∃ f, w.item (UInt8.ofNat i) = .ok f ∧
      ((∀ j < (pagesOf 34 f.text).length, ∃ s ∈ log, ShowsPage f j s) ∨ ∃ s ∈ log, ShowsWhole f s) := by
  cases hlg : z.large with
  | none =>
    have hz : ∃ num, w.numItems = .ok num ∧ NavInv w num.toNat z log := by
      unfold UiInv at hz
      rw [hlg] at hz
      exact hz
    obtain ⟨num, hn, hnav⟩ := hz
    refine ⟨num, hn, fun i hi => ?_⟩
    have hidx : z.itemIdx = num.toNat := by
      simp only [Zui.chosen, hlg, Zui.action] at ha
      split at ha
      · rename_i h; rw [hnav.count] at h; omega
      · split at ha <;> simp at ha
    obtain ⟨f, hf, hp⟩ := hnav.before i hi (by omega)
    exact ⟨f, hf, .inl hp⟩
  | some l =>
    have hz : (l.x.step = .title ∧ l.x.inside = false) ∨
        ∃ num seen, w.numItems = .ok num ∧ InvX w num l.x seen ∧ ∀ s ∈ seen, s.screen ∈ log := by
      unfold UiInv at hz
      rw [hlg] at hz
      exact hz
    simp only [Zui.chosen, hlg] at ha
    have hst : l.x.step = .approve := by
      unfold ZuiX.action at ha
      split at ha <;> first | assumption | cases ha
    rcases hz with ⟨ht, -⟩ | ⟨num, seen, hn, hi, hs⟩
    · rw [ht] at hst; cases hst
    · refine ⟨num, hn, fun i hlt => ?_⟩
      obtain ⟨f, hf, hm⟩ := (hi.done (.inl hst)).2.2.2.2.2 i hlt
      exact ⟨f, hf, .inr ⟨_, hs _ hm, rfl⟩⟩

/-- The display over a stretch of a history in which the user goes through one review. -/
theorem Dev.run_nav {cfg : Config} {v : View} {w : Viewer} (hw : w.Short) (hk : w.Fit) {s : Dev}
    {es : List (Env × Event)} {log : List Screen} (hinv : UiInv w s.zui log)
    (hb : ∀ x ∈ s.trace cfg es, x.Calm cfg ∧ x.st.view = some v ∧ x.st.zui.jumps = false ∧
      x.st.viewer x.env = some w)
    (hv : (s.run cfg es).1.view = some v) (hon : (s.run cfg es).1.OnScreen) :
    s.OnScreen ∧ ∃ log', UiInv w (s.run cfg es).1.zui log' ∧
      ∀ sc ∈ log', sc ∈ log ∨ (∃ x ∈ s.trace cfg es, sc = x.st.zui.screen) ∨ sc = (s.run cfg es).1.zui.screen := by
  induction es generalizing s log with
  | nil => exact ⟨hon, log, hinv, fun sc h => .inl h⟩
  | cons e es ih =>
    obtain ⟨hb1, hv1, hx1, hw1⟩ := hb ⟨s, e.1, e.2, (s.step cfg e.1 e.2).2⟩ (by simp [Dev.trace])
    dsimp only at hb1 hv1 hx1 hw1
    have hvn : (s.step cfg e.1 e.2).1.view = some v := by
      cases es with
      | nil => exact hv
      | cons e' es' => exact (hb _ (List.mem_cons_of_mem _ (List.mem_cons_self ..))).2.1
    have hbt : ∀ x ∈ (s.step cfg e.1 e.2).1.trace cfg es, x.Calm cfg ∧ x.st.view = some v ∧
        x.st.zui.jumps = false ∧ x.st.viewer x.env = some w := fun x hx => hb x (List.mem_cons_of_mem _ hx)
    -- the screen after this event is among those of the rest
    have hfirst : (∃ x ∈ (s.step cfg e.1 e.2).1.trace cfg es, (s.step cfg e.1 e.2).1.zui.screen = x.st.zui.screen) ∨
        (s.step cfg e.1 e.2).1.zui.screen = ((s.step cfg e.1 e.2).1.run cfg es).1.zui.screen := by
      cases es with
      | nil => exact .inr rfl
      | cons e' es' => exact .inl ⟨_, List.mem_cons_self .., rfl⟩
    have hon1 := Dev.run_screen_back (s := (s.step cfg e.1 e.2).1) (fun x hx => ⟨(hbt x hx).1, (hbt x hx).2.1⟩) hv hon
    have hon0 := Dev.step_screen_back hb1.1 hb1.2 hvn hon1
    refine ⟨hon0, ?_⟩
    have lift : ∀ log1, UiInv w (s.step cfg e.1 e.2).1.zui log1 →
        (∀ sc ∈ log1, sc ∈ log ∨ sc = (s.step cfg e.1 e.2).1.zui.screen) →
        ∃ log', UiInv w (s.run cfg (e :: es)).1.zui log' ∧ ∀ sc ∈ log', sc ∈ log ∨
          (∃ x ∈ s.trace cfg (e :: es), sc = x.st.zui.screen) ∨ sc = (s.run cfg (e :: es)).1.zui.screen := by
      intro log1 h1 h2
      obtain ⟨_, log', h3, h4⟩ := ih h1 hbt hv hon
      refine ⟨log', h3, fun sc hsc => ?_⟩
      rcases h4 sc hsc with h | ⟨x, hx, h⟩ | h
      · rcases h2 sc h with h | h
        · exact .inl h
        · rcases hfirst with ⟨x, hx, h'⟩ | h'
          · exact .inr (.inl ⟨x, List.mem_cons_of_mem _ hx, h.trans h'⟩)
          · exact .inr (.inr (h.trans h'))
      · exact .inr (.inl ⟨x, List.mem_cons_of_mem _ hx, h⟩)
      · exact .inr (.inr h)
    rcases Dev.step_navigates hb1.1 hb1.2 hon0.1 hon0.2 hw1 hx1 hvn with h | h | h
    · cases h with
      | same hz _ _ => exact lift log (by rw [hz]; exact hinv) fun sc h => .inl h
      | left _ hz =>
        refine lift (log ++ [(s.step cfg e.1 e.2).1.zui.screen]) (hinv.move hw hk (.inl hz)) ?_
        intro sc hsc
        simpa using hsc
      | right _ hz =>
        refine lift (log ++ [(s.step cfg e.1 e.2).1.zui.screen]) (hinv.move hw hk (.inr hz)) ?_
        intro sc hsc
        simpa using hsc
    · obtain ⟨_, k, l1, l2, hs⟩ := hon1
      rw [h] at hs
      cases hs
    · rw [hon1.1] at h
      cases h

/-- Every item of the review `w` is on the display: each of its pages in one of the states, or in one state as a
whole. -/
def AllDisplayed (w : Viewer) (states : List Moment) : Prop :=
  ∃ num, w.numItems = .ok num ∧ ∀ i < num.toNat, ∃ f, w.item (UInt8.ofNat i) = .ok f ∧
    IsPaging 34 f.text (pagesOf 34 f.text) ∧
    ((∀ j < (pagesOf 34 f.text).length, ∃ y ∈ states, ShowsPage f j y.st.zui.screen) ∨
      ∃ y ∈ states, ShowsWhole f y.st.zui.screen)

theorem Dev.trace_nav {cfg : Config} {s : Dev} {es : List (Env × Event)} {a b c : List Moment} {m0 m : Moment}
    {v : View} {w : Viewer} (h : s.trace cfg es = a ++ m0 :: (b ++ m :: c)) (hopen : m0.Opens cfg v)
    (hshow : ∀ u, (m0.next cfg).upl = u ∨ (∃ acc, (m0.next cfg).upl = Upl.drop acc u) → v.viewer m0.env.cr u.buf = w)
    (hw : w.Short) (hk : w.Fit)
    (hb : ∀ x ∈ b, x.Calm cfg ∧ x.st.view = some v)
    (hx : ∀ x ∈ b, x.st.zui.jumps = false ∧ x.st.viewer x.env = some w)
    (ha : Approves m.st m.ev v) : AllDisplayed w (b ++ [m]) := by
  obtain ⟨ea, eb, rfl, _, _, hm0, _, hrest⟩ := Dev.trace_split h
  obtain ⟨ec, ed, rfl, _, hb', hm', _, _⟩ := Dev.trace_split hrest.symm
  have hv : ((m0.next cfg).run cfg ec).1.view = some v := by rw [← hm']; exact ha.view
  have hon : ((m0.next cfg).run cfg ec).1.OnScreen := by rw [← hm']; exact ⟨ha.running, ha.onScreen⟩
  have hon0 := Dev.run_screen_back (fun x hx => hb x (by rw [hb']; exact hx)) hv hon
  obtain ⟨buf, rx, cmd, p, u, hrec, ho, _, hupl, hscr⟩ := hopen.ex
  have hshown : m0.st.zui.openReview (v.viewer m0.env.cr u.buf) = .shown (m0.next cfg).zui := by
    rcases hscr with h | h | h
    · exact h
    · obtain ⟨_, k, l1, l2, hs⟩ := hon0
      rw [h] at hs
      cases hs
    · have := hon0.1
      rw [h] at this
      cases this
  rw [hshow u hupl] at hshown
  obtain ⟨_, log, hnav, hlog⟩ := Dev.run_nav hw hk (UiInv.start hw hshown)
    (fun x hx' => by
      have hx' : x ∈ b := by rw [hb']; exact hx'
      exact ⟨(hb x hx').1, (hb x hx').2, (hx x hx').1, (hx x hx').2⟩) hv hon
  rw [← hm'] at hnav hlog
  rw [← hb'] at hlog
  have hlog' : ∀ sc ∈ log, ∃ y ∈ b ++ [m], sc = y.st.zui.screen := by
    intro sc hsc
    rcases hlog sc hsc with h | ⟨y, hy, h⟩ | h
    · have hsc := List.mem_singleton.mp h
      cases b with
      | nil =>
        refine ⟨m, by simp, ?_⟩
        rw [hsc]
        cases ec with
        | nil => rw [hm']; rfl
        | cons e es => simp [Dev.trace] at hb'
      | cons y ys =>
        refine ⟨y, by simp, ?_⟩
        rw [hsc]
        cases ec with
        | nil => simp [Dev.trace] at hb'
        | cons e es =>
          simp only [Dev.trace, List.cons.injEq] at hb'
          rw [hb'.1]
    · exact ⟨y, by simp [hy], h⟩
    · exact ⟨m, by simp, h⟩
  obtain ⟨num, hn, hall⟩ := hnav.approved ha.action
  refine ⟨num, hn, fun i hi => ?_⟩
  obtain ⟨f, hf, hp⟩ := hall i hi
  refine ⟨f, hf, pagesOf_paging (by omega) _, ?_⟩
  rcases hp with hp | ⟨sc, hsc, hshows⟩
  · refine .inl fun p hpm => ?_
    obtain ⟨sc, hsc, hshows⟩ := hp p hpm
    obtain ⟨y, hy, rfl⟩ := hlog' sc hsc
    exact ⟨y, hy, hshows⟩
  · obtain ⟨y, hy, rfl⟩ := hlog' sc hsc
    exact .inr ⟨y, hy, hshows⟩

/-- A review looks the same as long as the upload memory is left alone. -/
theorem View.viewer_same {b b' : SwapBuf} (h : SameMemory b b') (v : View) (cr : Crypto) :
    v.viewer cr b' = v.viewer cr b := by
  cases v with
  | sign hh d r m =>
    cases r with
    | none => rfl
    | some r => simp only [View.viewer, h.get]
  | bakingSign hh d r op m => simp only [View.viewer, h.get]
  | _ => rfl

theorem Moment.Opens.memory {cfg : Config} {m : Moment} {v : View} (h : m.Opens cfg v) :
    ∃ buf rx c p u, Received cfg m.st m.ev buf rx c ∧
      Tezos.Opens m.env m.st (buf.getD 2 0) (buf.getD 3 0) (apduPayload buf) c v p u ∧ (m.next cfg).path = p ∧
      SameMemory u.buf (m.next cfg).upl.buf := by
  obtain ⟨buf, rx, c, p, u, hrec, ho, hp, hu, _⟩ := h.ex
  refine ⟨buf, rx, c, p, u, hrec, ho, hp, ?_⟩
  rcases hu with hu | ⟨acc, hu⟩
  · rw [hu]; exact ⟨rfl, rfl⟩
  · rw [hu]; exact SameMemory.drop acc u

theorem SameMemory.symm {b b' : SwapBuf} (h : SameMemory b b') : SameMemory b' b := ⟨h.1.symm, h.2.symm⟩
theorem SameMemory.trans {a b c : SwapBuf} (h : SameMemory a b) (h' : SameMemory b c) : SameMemory a c :=
  ⟨h'.1.trans h.1, h'.2.trans h.2⟩

theorem View.counted (v : View) (cr : Crypto) (mem : SwapBuf) : (v.viewer cr mem).numItems ≠ .error .noData := by
  cases v with
  | sign hh d r m =>
    cases r with
    | none => nofun
    | some r =>
      change numItemsOps _ ≠ _
      unfold numItemsOps
      split <;> nofun
  | _ => nofun

theorem Zui.Plain.jumps {z : Zui} (h : z.Plain) : z.jumps = false := by
  unfold Zui.jumps
  rcases h with h | h
  · rw [h]; rfl
  · unfold Zui.display at h
    split at h
    · rename_i hl; rw [Option.isSome_iff_ne_none] at hl; cases hz : z.large with
      | none => exact absurd hz hl
      | some l => simp
    · cases h

/-- C37 on the device, with either display, along every history: a review that the user approves was opened by an earlier
command and has been pending since; and if the host sent no packet of a signing command in between, and expert mode was
off or the display is the larger one, the review stayed the same and every one of its items was on the display, page by
page or whole. -/
theorem C37_everything_displayed (cfg : Config) (new : NewDevice) (es : List (Env × Event)) (past rest : List Moment)
    (m : Moment) (h : (Dev.factory new).trace cfg es = past ++ m :: rest) (v : View) (ha : Approves m.st m.ev v) :
    ∃ a m0 b, past = a ++ m0 :: b ∧ m0.Opens cfg v ∧ (∀ x ∈ b, x.st.view = some v ∧ ∀ w, ¬ x.Opens cfg w) ∧
      ((∀ x ∈ b, x.ev.packet cfg.build = none ∧ x.st.zui.Plain) → ∀ cr : Crypto, cr.Sized →
        (∀ x ∈ m0 :: (b ++ [m]), x.env.cr = cr) →
        ∃ w, (∀ y ∈ b ++ [m], y.st.viewer y.env = some w) ∧ AllDisplayed w (b ++ [m])) := by
  obtain ⟨a, m0, b, rfl, ho, hb⟩ := Dev.trace_view h rfl ha.view
  refine ⟨a, m0, b, rfl, ho, hb, fun hbx cr hs hcr => ?_⟩
  have ht : (Dev.factory new).trace cfg es = a ++ m0 :: (b ++ m :: rest) := by rw [h]; simp
  have hcalm : ∀ x ∈ b, x.Calm cfg := fun x hx => ⟨(hbx x hx).1, (hb x hx).2⟩
  have hk := Dev.trace_kept ht hcalm (fun x hx => (hb x hx).1) ha.view
  have hcr0 : m0.env.cr = cr := hcr m0 (by simp)
  have hview : ∀ y ∈ b ++ [m], y.st.viewer y.env = some (v.viewer cr (m0.next cfg).upl.buf) := by
    intro y hy
    have hyv : y.st.view = some v := by
      rcases List.mem_append.mp hy with hy | hy
      · exact (hb y hy).1
      · rw [List.mem_singleton.mp hy]; exact ha.view
    unfold Dev.viewer
    rw [hyv, (hk y hy).upl, hcr y (List.mem_cons_of_mem _ hy)]
    rfl
  refine ⟨_, hview, Dev.trace_nav ht ho ?_ (C37_texts_fit cfg m0 v (by rw [hcr0]; exact hs) ho cr hs _)
    ⟨C73_reviews_fit cfg m0 v (by rw [hcr0]; exact hs) ho cr hs _, View.counted v cr _⟩
    (fun x hx => ⟨hcalm x hx, (hb x hx).1⟩) (fun x hx => ⟨(hbx x hx).2.jumps, hview x (by simp [hx])⟩) ha⟩
  intro u hu
  rw [hcr0]
  apply View.viewer_same
  rcases hu with hu | ⟨acc, hu⟩
  · rw [hu]; exact ⟨rfl, rfl⟩
  · rw [hu]; exact (SameMemory.drop acc u).symm

/-! ### A concrete case -/

namespace Demo

theorem hash_length (n : Nat) (m : Bytes) : (hash n m).length = n := beEnc_length ..

theorem crypto_sized : crypto.Sized where
  sha256 h := by cases h; exact hash_length ..
  sha512 h := by cases h; exact hash_length ..
  blake2b h := by cases h; exact hash_length ..
  hmac h := by cases h; exact hash_length ..
  publicKey {c p k} h := by
    cases h
    cases c <;> exact hash_length ..
  sign h := by
    cases h
    rw [hash_length]
    decide

set_option maxRecDepth 100000 in
/-- The hypotheses of `C37_everything_displayed`, and that the review has more than one item: signing an operation in
the wallet build, going forward and backward through the pages. -/
example :
    let es := ok ([apdu 0x04 0 0 keyPath, apdu 0x04 0x81 0 delegation] ++
      [.right, .right, .left] ++ List.replicate 10 .right ++ [.both])
    let t := fresh.trace walletApp es
    (t.getLast?.map fun m => (approved m.st m.ev).isSome) = some true ∧
    ((t.drop 2).all fun x => x.ev.isButton && decide x.st.zui.Plain && x.st.view.isSome) = true ∧
    (t.getLast?.map fun m => m.st.zui.itemCount) = some 9 := by
  decide +kernel

end Demo

end Tezos
