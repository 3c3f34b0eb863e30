import Verif.Spec.Menu
import Verif.Props.Buffers
import Verif.Props.WalkX
/-
C100: the idle menu says whether expert mode is on, and only its user can change it.
-/
namespace Tezos
open Spec

/-! ### The texts of the menu -/

/-- What happens to an app whose menu is shown: a button, or other screens - reviews, errors - after which the menu is
shown again. -/
inductive MenuEv where
  | key (k : MenuKey)
  | busy (cs : List UiCall)

/-- The other screens are screens of the app. -/
def MenuEv.OfApp : MenuEv → Prop
  | .key _ => True
  | .busy cs => ∀ c ∈ cs, c.OfApp

/-- The menu of the two-line display after a sequence of events; `none` if one of the other screens does not return. -/
def MenuS.run (cfg : Config) : List MenuEv → MenuRes MenuS → Option (MenuRes MenuS)
  | [], r => some r
  | .key k :: es, .on m => MenuS.run cfg es (m.press cfg k)
  | .busy cs :: es, .on m => (m.buf.calls cs).bind fun b => MenuS.run cfg es ({ m with buf := b }.showIdle 0)
  | _ :: _, r => some r

/-- The same on the larger display. -/
def MenuX.run (cfg : Config) : List MenuEv → MenuRes MenuX → Option (MenuRes MenuX)
  | [], r => some r
  | .key k :: es, .on m => MenuX.run cfg es (m.press cfg k)
  | .busy cs :: es, .on m => (m.buf.calls cs).bind fun b => MenuX.run cfg es { m with buf := b }.showIdle
  | _ :: _, r => some r

/-- What the user has done to the menu; `none` if they left the app. -/
def menuAfter : List MenuEv → MenuState → Option MenuState
  | [], s => some s
  | .key k :: es, s => (s.press k).bind (menuAfter es)
  | .busy _ :: es, s => menuAfter es { s with pos := 0 }

/-- The text of the version entry. -/
def versionText (cfg : Config) : String :=
  "v" ++ toString cfg.major.toNat ++ "." ++ toString cfg.minor.toNat ++ "." ++ toString cfg.patch.toNat

theorem ascii_append (a b : String) : ascii (a ++ b) = ascii a ++ ascii b := by
  simp only [ascii, String.toList_append, List.map_append]

theorem decimal_u8 (n : UInt8) : decimal n.toNat = ascii (toString n.toNat) :=
  forall_u8 (P := fun n => decimal n.toNat = ascii (toString n.toNat)) (by decide +kernel) n

theorem versionLine_text (cfg : Config) : versionLine cfg = ascii (versionText cfg) := by
  simp only [versionLine, versionText, ascii_append, decimal_u8]

/-- The two lines on the screen. -/
def MenuEntry.Lines (e : Option MenuEntry) (l : Option (String × String)) : Prop :=
  e.map (fun e => (e.line1, e.line2)) = l.map (fun l => (ascii l.1, ascii l.2))

/-- Between events: the buffers are sound and hold the texts of the menu. -/
structure MenuS.Ok (m : MenuS) (s : MenuState) : Prop where
  sound : m.buf.Sound
  pos : m.pos = s.pos
  mode : m.expert = s.expert
  key : cString m.buf.key = ascii "DO NOT USE"
  value : cString m.buf.value = ascii (if s.expert then "enabled" else "disabled")
  le : s.pos ≤ 5

theorem MenuS.Ok.shown {m : MenuS} {s : MenuState} (h : m.Ok s) (cfg : Config) :
    MenuEntry.Lines (m.shown cfg) (menuLines "License: " (versionText cfg) s.expert)[s.pos]? := by
  unfold MenuEntry.Lines MenuS.shown
  rw [h.pos]
  have hl := h.le
  obtain ⟨p, e⟩ := s
  have : p = 0 ∨ p = 1 ∨ p = 2 ∨ p = 3 ∨ p = 4 ∨ p = 5 := by dsimp only at hl; omega
  rcases this with rfl | rfl | rfl | rfl | rfl | rfl <;>
    (simp [menuS, menuLines, h.key, h.value, versionLine_text]; try rfl)

theorem MenuS.showIdle_ok {m : MenuS} (hb : m.buf.Sound) (p : Nat) (hp : p ≤ 5) :
    ∃ m', m.showIdle p = .on m' ∧ m'.Ok ⟨p, m.expert⟩ := by
  obtain ⟨b, h1, h2, h3, h4⟩ := C99_menu_small hb m.expert
  unfold MenuS.showIdle
  rw [h1]
  exact ⟨_, rfl, h2, rfl, rfl, h3, h4, hp⟩

theorem MenuS.press_ok {m : MenuS} {s : MenuState} (h : m.Ok s) (cfg : Config) (k : MenuKey) :
    match s.press k with
    | none => m.press cfg k = .exit
    | some s' => ∃ m', m.press cfg k = .on m' ∧ m'.Ok s' := by
  have hl := h.le
  cases k with
  | left => exact ⟨_, rfl, h.sound, congrArg (· - 1) h.pos, h.mode, h.key, h.value, by dsimp only; omega⟩
  | right =>
    refine ⟨_, rfl, h.sound, ?_, h.mode, h.key, h.value, by dsimp only; omega⟩
    show menuNext 6 m.pos = min (s.pos + 1) 5
    rw [h.pos, menuNext]
    split <;> omega
  | both =>
    have hc : (m.shown cfg).bind MenuEntry.call = if s.pos = 1 then some .toggle else
        if s.pos = 5 then some .exit else none := by
      unfold MenuS.shown
      rw [h.pos]
      obtain ⟨p, e⟩ := s
      have : p = 0 ∨ p = 1 ∨ p = 2 ∨ p = 3 ∨ p = 4 ∨ p = 5 := by dsimp only at hl; omega
      rcases this with rfl | rfl | rfl | rfl | rfl | rfl <;> rfl
    simp only [MenuS.press, hc, MenuState.press]
    by_cases h1 : s.pos = 1
    · simp only [h1, if_true]
      obtain ⟨m', e1, e2⟩ := MenuS.showIdle_ok (m := { m with expert := !m.expert }) h.sound 1 (by omega)
      refine ⟨m', e1, ?_⟩
      dsimp only at e2
      rw [h.mode] at e2
      exact e2
    · simp only [h1, if_false]
      by_cases h5 : s.pos = 5
      · simp only [h5, if_true]
      · simp only [h5, if_false]
        exact ⟨m, rfl, h⟩

/-- The app has just been started. -/
def MenuS.start : MenuRes MenuS := MenuS.showIdle 0 ⟨0, false, BufS.init⟩

/-- The same on the larger display. -/
def MenuX.start : MenuRes MenuX := MenuX.showIdle ⟨0, false, BufX.init⟩

theorem MenuS.run_exit (cfg : Config) (es : List MenuEv) : MenuS.run cfg es .exit = some .exit := by
  cases es with
  | nil => rfl
  | cons e es => cases e <;> rfl

theorem MenuX.run_exit (cfg : Config) (es : List MenuEv) : MenuX.run cfg es .exit = some .exit := by
  cases es with
  | nil => rfl
  | cons e es => cases e <;> rfl

theorem MenuS.run_ok {cfg : Config} {es : List MenuEv} (hes : ∀ e ∈ es, e.OfApp) {m : MenuS} {s : MenuState} (h : m.Ok s)
    {r : MenuRes MenuS} (hr : MenuS.run cfg es (.on m) = some r) :
    match menuAfter es s with
    | none => r = .exit
    | some s' => ∃ m', r = .on m' ∧ m'.Ok s' := by
  induction es generalizing m s with
  | nil => cases hr; exact ⟨m, rfl, h⟩
  | cons e es ih =>
    have hes' := fun e he => hes e (List.mem_cons_of_mem _ he)
    cases e with
    | key k =>
      simp only [MenuS.run] at hr
      have hp := MenuS.press_ok h cfg k
      simp only [menuAfter]
      cases hk : s.press k with
      | none =>
        rw [hk] at hp
        dsimp only at hp
        rw [hp, MenuS.run_exit] at hr
        cases hr
        rfl
      | some s' =>
        rw [hk] at hp
        obtain ⟨m', e1, e2⟩ := hp
        rw [e1] at hr
        exact ih hes' e2 hr
    | busy cs =>
      simp only [MenuS.run] at hr
      obtain ⟨b, hb, hr⟩ := Option.bind_eq_some_iff.mp hr
      have hs := BufS.calls_sound (hes _ List.mem_cons_self) h.sound hb
      obtain ⟨m', e1, e2⟩ := MenuS.showIdle_ok (m := { m with buf := b }) hs 0 (by omega)
      rw [e1] at hr
      dsimp only at e2
      rw [h.mode] at e2
      exact ih hes' e2 hr

/-- C100, two-line display: whatever buttons are pressed and whatever screens come in between, the entry on the screen is
the one that the user went to, and its lines are those of the menu for the mode that they chose. -/
theorem C100_menu_small (cfg : Config) (es : List MenuEv) (hes : ∀ e ∈ es, e.OfApp) (r : MenuRes MenuS)
    (hr : MenuS.run cfg es MenuS.start = some r) :
    match menuAfter es ⟨0, false⟩ with
    | none => r = .exit
    | some s => ∃ m, r = .on m ∧ m.pos = s.pos ∧ m.expert = s.expert ∧ s.pos ≤ 5 ∧
      MenuEntry.Lines (m.shown cfg) (menuLines "License: " (versionText cfg) s.expert)[s.pos]? := by
  obtain ⟨m, e1, e2⟩ := MenuS.showIdle_ok (m := ⟨0, false, BufS.init⟩) BufS.init_sound 0 (by omega)
  unfold MenuS.start at hr
  rw [e1] at hr
  have h := MenuS.run_ok hes e2 hr
  dsimp only at h
  cases hm : menuAfter es ⟨0, false⟩ with
  | none => rw [hm] at h; exact h
  | some s =>
    rw [hm] at h
    obtain ⟨m', e3, e4⟩ := h
    exact ⟨m', e3, e4.pos, e4.mode, e4.le, e4.shown cfg⟩

/-! The larger display -/

/-- Between events: the buffers are sound; the texts of the menu are in them where they are shown. -/
structure MenuX.Ok (m : MenuX) (s : MenuState) : Prop where
  sound : m.buf.Sound
  pos : m.pos = s.pos
  mode : m.expert = s.expert
  key : cString m.buf.key = ascii "DO NOT USE"
  message : s.pos = 1 → cString m.buf.message = ascii (if s.expert then "enabled" else "disabled")
  le : s.pos ≤ 5

theorem MenuX.Ok.shown {m : MenuX} {s : MenuState} (h : m.Ok s) (cfg : Config) :
    MenuEntry.Lines (m.shown cfg) (menuLines "License:" (versionText cfg) s.expert)[s.pos]? := by
  unfold MenuEntry.Lines MenuX.shown
  rw [h.pos]
  have hl := h.le
  have hm := h.message
  obtain ⟨p, e⟩ := s
  have : p = 0 ∨ p = 1 ∨ p = 2 ∨ p = 3 ∨ p = 4 ∨ p = 5 := by dsimp only at hl; omega
  rcases this with rfl | rfl | rfl | rfl | rfl | rfl <;>
    (simp [menuX, menuLines, h.key, hm, versionLine_text]; try rfl)

theorem MenuX.enter_ok {m : MenuX} (hb : m.buf.Sound) (hk : cString m.buf.key = ascii "DO NOT USE") (p : Nat)
    (hp : p ≤ 5) : ∃ m', m.enter p = .on m' ∧ m'.Ok ⟨p, m.expert⟩ := by
  unfold MenuX.enter
  split
  · obtain ⟨b, h1, h2, h3, h4⟩ := (C99_menu_large hb m.expert).2
    rw [h1]
    exact ⟨_, rfl, h2, rfl, rfl, by dsimp only; rw [h3, hk], fun _ => h4, hp⟩
  · rename_i hne
    exact ⟨_, rfl, hb, rfl, rfl, hk, fun h => absurd h hne, hp⟩

theorem MenuX.showIdle_ok {m : MenuX} (hb : m.buf.Sound) : ∃ m', m.showIdle = .on m' ∧ m'.Ok ⟨0, m.expert⟩ := by
  obtain ⟨b, h1, h2, h3⟩ := (C99_menu_large hb m.expert).1
  unfold MenuX.showIdle
  rw [h1]
  exact MenuX.enter_ok (m := { m with buf := b }) h2 h3 0 (by omega)

theorem MenuX.press_ok {m : MenuX} {s : MenuState} (h : m.Ok s) (cfg : Config) (k : MenuKey) :
    match s.press k with
    | none => m.press cfg k = .exit
    | some s' => ∃ m', m.press cfg k = .on m' ∧ m'.Ok s' := by
  have hl := h.le
  have go : ∀ p, p ≤ 5 → (p = s.pos → ∃ m', MenuRes.on m = .on m' ∧ m'.Ok { s with pos := p }) ∧
      ∃ m', m.enter p = .on m' ∧ m'.Ok { s with pos := p } := by
    intro p hp
    constructor
    · rintro rfl; exact ⟨m, rfl, h⟩
    · have := MenuX.enter_ok h.sound h.key p hp
      rw [h.mode] at this
      exact this
  cases k with
  | left =>
    have hg := go (s.pos - 1) (by omega)
    simp only [MenuX.press, MenuState.press, menuPrev, h.pos]
    split
    · exact hg.1 (by assumption)
    · exact hg.2
  | right =>
    have hg := go (min (s.pos + 1) 5) (by omega)
    have hn : menuNext (menuX cfg m.buf).length m.pos = min (s.pos + 1) 5 := by
      show menuNext 6 m.pos = _
      rw [h.pos, menuNext]
      split <;> omega
    simp only [MenuX.press, MenuState.press, hn]
    rw [h.pos]
    split
    · exact hg.1 (by assumption)
    · exact hg.2
  | both =>
    have hc : (m.shown cfg).bind MenuEntry.call = if s.pos = 1 then some .toggle else
        if s.pos = 5 then some .exit else none := by
      unfold MenuX.shown
      rw [h.pos]
      obtain ⟨p, e⟩ := s
      have : p = 0 ∨ p = 1 ∨ p = 2 ∨ p = 3 ∨ p = 4 ∨ p = 5 := by dsimp only at hl; omega
      rcases this with rfl | rfl | rfl | rfl | rfl | rfl <;> rfl
    simp only [MenuX.press, hc, MenuState.press]
    by_cases h1 : s.pos = 1
    · simp only [h1, if_true]
      obtain ⟨m', e1, e2⟩ := MenuX.enter_ok (m := { m with expert := !m.expert }) h.sound h.key 1 (by omega)
      refine ⟨m', e1, ?_⟩
      dsimp only at e2
      rw [h.mode] at e2
      exact e2
    · simp only [h1, if_false]
      by_cases h5 : s.pos = 5
      · simp only [h5, if_true]
      · simp only [h5, if_false]
        exact ⟨m, rfl, h⟩

theorem MenuX.run_ok {cfg : Config} {es : List MenuEv} (hes : ∀ e ∈ es, e.OfApp) {m : MenuX} {s : MenuState} (h : m.Ok s)
    {r : MenuRes MenuX} (hr : MenuX.run cfg es (.on m) = some r) :
    match menuAfter es s with
    | none => r = .exit
    | some s' => ∃ m', r = .on m' ∧ m'.Ok s' := by
  induction es generalizing m s with
  | nil => cases hr; exact ⟨m, rfl, h⟩
  | cons e es ih =>
    have hes' := fun e he => hes e (List.mem_cons_of_mem _ he)
    cases e with
    | key k =>
      simp only [MenuX.run] at hr
      have hp := MenuX.press_ok h cfg k
      simp only [menuAfter]
      cases hk : s.press k with
      | none =>
        rw [hk] at hp
        dsimp only at hp
        rw [hp, MenuX.run_exit] at hr
        cases hr
        rfl
      | some s' =>
        rw [hk] at hp
        obtain ⟨m', e1, e2⟩ := hp
        rw [e1] at hr
        exact ih hes' e2 hr
    | busy cs =>
      simp only [MenuX.run] at hr
      obtain ⟨b, hb, hr⟩ := Option.bind_eq_some_iff.mp hr
      have hs := BufX.calls_sound (hes _ List.mem_cons_self) h.sound hb
      obtain ⟨m', e1, e2⟩ := MenuX.showIdle_ok (m := { m with buf := b }) hs
      rw [e1] at hr
      dsimp only at e2
      rw [h.mode] at e2
      exact ih hes' e2 hr

/-- C100, larger display. -/
theorem C100_menu_large (cfg : Config) (es : List MenuEv) (hes : ∀ e ∈ es, e.OfApp) (r : MenuRes MenuX)
    (hr : MenuX.run cfg es MenuX.start = some r) :
    match menuAfter es ⟨0, false⟩ with
    | none => r = .exit
    | some s => ∃ m, r = .on m ∧ m.pos = s.pos ∧ m.expert = s.expert ∧ s.pos ≤ 5 ∧
      MenuEntry.Lines (m.shown cfg) (menuLines "License:" (versionText cfg) s.expert)[s.pos]? := by
  obtain ⟨m, e1, e2⟩ := MenuX.showIdle_ok (m := ⟨0, false, BufX.init⟩) BufX.init_sound
  unfold MenuX.start at hr
  rw [e1] at hr
  have h := MenuX.run_ok hes e2 hr
  dsimp only at h
  cases hm : menuAfter es ⟨0, false⟩ with
  | none => rw [hm] at h; exact h
  | some s =>
    rw [hm] at h
    obtain ⟨m', e3, e4⟩ := h
    exact ⟨m', e3, e4.pos, e4.mode, e4.le, e4.shown cfg⟩

/-- Expert mode is switched on, a review comes and goes, and the user looks again. -/
def demoMenu : List MenuEv := [.key .right, .key .both, .busy (demoCalls .mainnet), .key .right]

/-- What is on the screen of a menu. -/
def MenuRes.entry {α : Type} (f : α → Option MenuEntry) : MenuRes α → Option MenuEntry
  | .on m => f m
  | _ => none

set_option maxRecDepth 100000 in
/-- Satisfiable: the mode is shown as enabled. -/
example : ((MenuS.run Demo.bakingApp demoMenu MenuS.start).bind (MenuRes.entry (MenuS.shown Demo.bakingApp))).map
      MenuEntry.line2 = some (ascii "enabled") ∧
    ((MenuX.run Demo.bakingApp demoMenu MenuX.start).bind (MenuRes.entry (MenuX.shown Demo.bakingApp))).map
      MenuEntry.line2 = some (ascii "enabled") ∧
    menuAfter demoMenu ⟨0, false⟩ = some ⟨1, true⟩ := by
  decide +kernel

/-! ### The mode on the device -/

/-- If the update goes on, the mode is this. -/
def Upd.Mode (d : Bool) : Upd → Prop
  | .shown z | .failed z | .rejected z => z.expert = d
  | _ => True

theorem Zui.pagingIncrease_expert (z : Zui) : z.pagingIncrease.expert = z.expert := by
  unfold Zui.pagingIncrease
  repeat' split
  all_goals rfl

theorem Zui.pagingDecrease_expert (z : Zui) : z.pagingDecrease.expert = z.expert := by
  unfold Zui.pagingDecrease
  repeat' split
  all_goals rfl

theorem updateLoop_mode (v : Viewer) (f : Nat) {z : Zui} {d : Bool} (h : z.expert = d) : (updateLoop v f z).Mode d := by
  induction f generalizing z with
  | zero => trivial
  | succ f ih =>
    unfold updateLoop
    split
    · trivial
    · exact h
    · exact h
    · rename_i n _
      dsimp only
      have hl : (if n ≠ 0 ∧ z.pageIdx > n then { z with pageCount := n, pageIdx := n - 1 }
          else { z with pageCount := n } : Zui).expert = d := by
        split <;> exact h
      revert hl
      generalize (if n ≠ 0 ∧ z.pageIdx > n then { z with pageCount := n, pageIdx := n - 1 }
          else { z with pageCount := n } : Zui) = z1
      intro hl
      split
      · trivial
      · exact hl
      · exact hl
      · split
        · exact ih ((Zui.pagingIncrease_expert _).trans hl)
        · exact hl

theorem reviewUpdate_mode (v : Option Viewer) {z : Zui} {d : Bool} (h : z.expert = d) : (reviewUpdate v z).Mode d := by
  unfold reviewUpdate
  split
  · exact h
  · split
    · trivial
    · exact h
    · dsimp only
      split
      · exact h
      split
      · exact h
      · exact updateLoop_mode _ _ h

theorem Zui.ofResX_mode {z : Zui} {l : LargeUi} (e : XError) (r : ResX) : (z.ofResX l e r).Mode z.expert := by
  cases r <;> trivial

theorem Zui.openReview_mode (v : Viewer) (z : Zui) : (z.openReview v).Mode z.expert := by
  unfold Zui.openReview
  split
  · exact reviewUpdate_mode _ rfl
  · rename_i l h
    exact Zui.ofResX_mode (z := z) .ok (.on l.x.showReview)

theorem Zui.goLeft_mode (v : Option Viewer) (z : Zui) : (z.goLeft v).Mode z.expert := by
  unfold Zui.goLeft
  split
  · exact reviewUpdate_mode _ z.pagingDecrease_expert
  · exact Zui.ofResX_mode _ _

theorem Zui.goRight_mode (v : Option Viewer) (z : Zui) : (z.goRight v).Mode z.expert := by
  unfold Zui.goRight
  split
  · exact reviewUpdate_mode _ z.pagingIncrease_expert
  · exact Zui.ofResX_mode _ _

theorem Dev.reject_mode (s : Dev) : s.reject.1.zui.expert = s.zui.expert := by
  unfold Dev.reject
  dsimp only
  split
  · rfl
  · dsimp only
    rw [View.reject_zui]

theorem Dev.redraw_mode {u : Upd} {s : Dev} (h : u.Mode s.zui.expert) : (s.redraw u).1.zui.expert = s.zui.expert := by
  cases u with
  | shown z => exact h
  | failed z => exact h
  | rejected z =>
    have := Dev.reject_mode { s with zui := z }
    exact Eq.trans this h
  | panic => rfl
  | hang => rfl

theorem Dev.show_mode (env : Env) (v : View) (s : Dev) : (s.show env v).st.zui.expert = s.zui.expert := by
  have h := Zui.openReview_mode (v.viewer env.cr s.upl.buf) s.zui
  unfold Dev.show
  dsimp only
  split
  · rename_i hz; rw [hz] at h; exact h
  · rename_i hz; rw [hz] at h; exact h
  · rename_i hz; rw [hz] at h; exact h
  · rfl
  · rfl

theorem Dev.approve_mode (env : Env) (s : Dev) : (s.approve env).1.zui.expert = s.zui.expert := by
  unfold Dev.approve
  dsimp only
  split
  · rfl
  · dsimp only
    rw [(Res.deliver_kept _).2, View.accept_zui]

theorem Dev.onError_mode (c : Bool) (f : XError → XError) (s : Dev) : (s.onError c f).1.zui.expert = s.zui.expert := by
  unfold Dev.onError
  split
  · unfold Dev.acceptError
    dsimp only
    split <;> rfl
  · rfl

theorem Dev.pressBoth_mode (env : Env) (s : Dev) : (s.pressBoth env).1.zui.expert = s.zui.expert := by
  have key : ∀ r : Dev × Output, r.1.zui.expert = s.zui.expert →
      (if r.1.running ∧ r.1.zui.jumps then
        ((r.1.redraw (r.1.zui.expertJump (r.1.viewer env))).1,
          (⟨r.2.reply <|> (r.1.redraw (r.1.zui.expertJump (r.1.viewer env))).2.reply, r.2.sig,
            r.2.fault <|> (r.1.redraw (r.1.zui.expertJump (r.1.viewer env))).2.fault⟩ : Output))
        else r).1.zui.expert = s.zui.expert := by
    intro r hr
    split
    · have hj : (r.1.zui.expertJump (r.1.viewer env)).Mode r.1.zui.expert := reviewUpdate_mode _ rfl
      exact (Dev.redraw_mode hj).trans hr
    · exact hr
  unfold Dev.pressBoth
  dsimp only
  split
  · exact key _ (s.approve_mode env)
  · exact key _ s.reject_mode
  · exact key _ rfl

/-- What an event does to expert mode. -/
theorem Dev.step_mode (cfg : Config) (env : Env) (ev : Event) (s : Dev) :
    (s.step cfg env ev).1.zui.expert =
      match ev with
      | .expert => if s.running ∧ s.zui.screen = .idle then !s.zui.expert else s.zui.expert
      | .relaunch => false
      | _ => s.zui.expert := by
  cases ev with
  | relaunch =>
    show (Zui.init _).expert = false
    cases s.zui.display <;> rfl
  | apdu buf rx =>
    dsimp only
    rcases s.apdu_cases cfg env buf rx with ⟨h, _⟩ | ⟨c, hrec, h⟩
    · rw [h]
    rw [h, (Res.deliver_kept _).2]
    cases s.exec_cases cfg env c (buf.getD 2 0) (buf.getD 3 0) (apduPayload buf) with
    | still p u hs _ => rw [hs.1]; rfl
    | opened v p u u' ho hout hsig hst hupl =>
      rw [hst]
      exact Dev.show_mode env v _
    | reset p hc hp hl hr => rw [hr, (Dev.resetHwm_ram _ _ _).2]
    | auto h u u' q2 first data ref k digest hc hu hcv hp hk hd hm hout hsig hst =>
      rw [hst]
      rcases (s.withUpload s.path u).autoSign_cases env h digest data (specDecide data) (fun _ _ => specDecide_error) with
        ⟨h, _⟩ | ⟨b, w, _, _, ⟨h, _⟩ | ⟨_, k, sig, _, _, h⟩⟩ <;> rw [h] <;> rfl
  | left =>
    simp only [Dev.step]
    split
    · split
      · exact Dev.redraw_mode (Zui.goLeft_mode _ _)
      · exact s.onError_mode _ _
      · rfl
    · rfl
  | right =>
    simp only [Dev.step]
    split
    · split
      · exact Dev.redraw_mode (Zui.goRight_mode _ _)
      · exact s.onError_mode _ _
      · rfl
    · rfl
  | both =>
    simp only [Dev.step]
    split
    · split
      · exact s.pressBoth_mode env
      · exact s.onError_mode _ _
      · rfl
    · rfl
  | expert =>
    simp only [Dev.step]
    split <;> rfl

theorem toggle_entry {p : Nat} (h : menuCalls.getD p none = some .toggle) : p = 1 := by
  match p with
  | 0 | 2 | 3 | 4 | 5 => cases h
  | 1 => rfl
  | n + 6 => simp [menuCalls] at h

/-- C100: whatever happens to the device - requests, buttons in reviews and menus, failures - expert mode changes only
when both buttons are pressed while the menu shows the entry "Expert mode:", or goes off when the app is started. -/
theorem C100_only_by_user (cfg : Config) (env : Env) (ev : MenuEvent) (m : MenuDev)
    (h : (m.step cfg env ev).1.dev.zui.expert ≠ m.dev.zui.expert) :
    (ev = .key .both ∧ m.dev.running = true ∧ m.dev.zui.screen = .idle ∧ m.pos = 1 ∧ (m.step cfg env ev).1.pos = 1) ∨
    (ev = .relaunch ∧ (m.step cfg env ev).1.dev.zui.expert = false) := by
  cases ev with
  | relaunch => exact .inr ⟨rfl, m.dev.step_mode cfg env .relaunch⟩
  | apdu buf rx => exact absurd (m.dev.step_mode cfg env (.apdu buf rx)) h
  | key k =>
    left
    simp only [MenuDev.step] at h ⊢
    split at h
    · rename_i hi
      cases k with
      | left => exact absurd rfl h
      | right => exact absurd rfl h
      | both =>
        dsimp only at h ⊢
        rw [if_pos hi]
        split at h
        · rename_i ht
          exact ⟨rfl, hi.1, hi.2, toggle_entry ht, rfl⟩
        · exact absurd rfl h
        · exact absurd rfl h
    · cases k with
      | left => exact absurd (m.dev.step_mode cfg env .left) h
      | right => exact absurd (m.dev.step_mode cfg env .right) h
      | both => exact absurd (m.dev.step_mode cfg env .both) h

/-- C100: from the first entry of the menu, the user reaches the mode with the right button, switches it with both, and
stays on the entry. -/
theorem C100_switch (cfg : Config) (env1 env2 : Env) (m : MenuDev) (hi : m.idle) (hp : m.pos = 0) :
    m.run cfg [(env1, .key .right), (env2, .key .both)] =
      (⟨{ m.dev with zui := { m.dev.zui with expert := !m.dev.zui.expert } }, 1⟩, [.quiet, .quiet]) := by
  obtain ⟨d, p⟩ := m
  cases hp
  have hi' : (⟨d, 1⟩ : MenuDev).idle := hi
  have h1 : (⟨d, 0⟩ : MenuDev).step cfg env1 (.key .right) = (⟨d, 1⟩, .quiet) := by
    simp only [MenuDev.step]
    rw [if_pos hi]
    rfl
  have h2 : (⟨d, 1⟩ : MenuDev).step cfg env2 (.key .both) =
      (⟨{ d with zui := { d.zui with expert := !d.zui.expert } }, 1⟩, .quiet) := by
    simp only [MenuDev.step]
    rw [if_pos hi']
    have : d.step cfg env2 .expert = ({ d with zui := { d.zui with expert := !d.zui.expert } }, .quiet) :=
      if_pos hi
    show ((⟨(d.step cfg env2 .expert).1, 1⟩ : MenuDev), (d.step cfg env2 .expert).2) = _
    rw [this]
  simp only [MenuDev.run, h1, h2]

/-! ### Where the menu is -/

theorem Dev.show_idle {env : Env} {v : View} {s : Dev} (r : Res) (hst : r.st.zui = (s.show env v).st.zui)
    (hout : r.out = (s.show env v).out) (hr : r.deliver.1.running = true) : r.deliver.1.zui.screen ≠ .idle := by
  rw [(Res.deliver_kept _).2, hst]
  unfold Dev.show at hout ⊢
  dsimp only at hout ⊢
  split
  · rename_i z hz
    obtain ⟨k, a, b, h⟩ := openReview_screen hz
    show z.screen ≠ _
    rw [h]; nofun
  · nofun
  · nofun
  · rename_i hz
    rw [hz] at hout
    simp only [Dev.fault] at hout
    simp [Res.deliver, hout] at hr
  · rename_i hz
    rw [hz] at hout
    simp only [Dev.fault] at hout
    simp [Res.deliver, hout] at hr

/-- A request never brings the menu back. -/
theorem Dev.apdu_idle {cfg : Config} {env : Env} {buf : Bytes} {rx : Nat} {s : Dev}
    (hr : (s.step cfg env (.apdu buf rx)).1.running = true) (hi : (s.step cfg env (.apdu buf rx)).1.zui.screen = .idle) :
    s.running = true ∧ s.zui.screen = .idle := by
  rcases s.apdu_cases cfg env buf rx with ⟨h, _⟩ | ⟨c, hrec, h⟩
  · rw [h] at hr hi; exact ⟨hr, hi⟩
  refine ⟨hrec.running, ?_⟩
  rw [h] at hr hi
  rw [(Res.deliver_kept _).2] at hi
  cases s.exec_cases cfg env c (buf.getD 2 0) (buf.getD 3 0) (apduPayload buf) with
  | still p u hs _ => rw [hs.1] at hi; exact hi
  | opened v p u u' ho hout hsig hst hupl =>
    exact absurd ((Res.deliver_kept _).2 ▸ hi) (Dev.show_idle (v := v) _ (by rw [hst]) hout hr)
  | reset p hc hp hl hres => rw [hres, (Dev.resetHwm_ram _ _ _).2] at hi; exact hi
  | auto h u u' q2 first data ref k digest hc hu hcv hp hk hd hm hout hsig hst =>
    rw [hst] at hi
    rcases (s.withUpload s.path u).autoSign_cases env h digest data (specDecide data) (fun _ _ => specDecide_error) with
      ⟨h, _⟩ | ⟨b, w, _, _, ⟨h, _⟩ | ⟨_, k, sig, _, _, h⟩⟩ <;> rw [h] at hi <;> exact hi

/-- The menu stays on the screen during these events. -/
def MenuDev.Stays (cfg : Config) (m : MenuDev) : List (Env × MenuEvent) → Prop
  | [] => m.idle
  | (env, ev) :: es => m.idle ∧ ev ≠ .relaunch ∧ (m.step cfg env ev).1.Stays cfg es

/-- The buttons among the events. -/
def menuKeys (es : List (Env × MenuEvent)) : List MenuKey :=
  es.filterMap fun e => match e.2 with
    | .key k => some k
    | _ => none

theorem MenuDev.Stays.idle {cfg : Config} {m : MenuDev} {es : List (Env × MenuEvent)} (h : m.Stays cfg es) : m.idle := by
  cases es with
  | nil => exact h
  | cons e es => exact h.1

theorem menuWalk_append (p : Nat) (a b : List MenuKey) : menuWalk p (a ++ b) = menuWalk (menuWalk p a) b := by
  induction a generalizing p with
  | nil => rfl
  | cons k a ih => cases k <;> exact ih _

theorem MenuDev.step_stays {cfg : Config} {env : Env} {ev : MenuEvent} {m : MenuDev} (hi : m.idle)
    (hev : ev ≠ .relaunch) (hs : (m.step cfg env ev).1.idle) :
    (m.step cfg env ev).1.pos = menuWalk m.pos (menuKeys [(env, ev)]) := by
  cases ev with
  | relaunch => exact absurd rfl hev
  | apdu buf rx =>
    simp only [MenuDev.step] at hs ⊢
    exact if_pos hs.2
  | key k =>
    simp only [MenuDev.step] at hs ⊢
    rw [if_pos hi] at hs ⊢
    cases k with
    | left =>
      rfl
    | right =>
      show menuNext 6 m.pos = if m.pos < 5 then m.pos + 1 else m.pos
      unfold menuNext; split <;> split <;> omega
    | both =>
      dsimp only at hs ⊢
      split at hs
      · rename_i h
        exact (toggle_entry h).symm
      · cases hs.1
      · rfl

theorem MenuDev.step_returns {cfg : Config} {env : Env} {ev : MenuEvent} {m : MenuDev}
    (h : ev = .relaunch ∨ ¬ m.idle) (hs : (m.step cfg env ev).1.idle) : (m.step cfg env ev).1.pos = 0 := by
  cases ev with
  | relaunch => rfl
  | apdu buf rx =>
    rcases h with h | h
    · cases h
    · exact absurd (Dev.apdu_idle hs.1 hs.2) h
  | key k =>
    rcases h with h | h
    · cases h
    · simp only [MenuDev.step]
      rw [if_neg h]

/-- C100: the entry on the screen is where the buttons pressed since the menu came up lead, from its first entry: nothing
else moves the menu. Whatever happened to a device whose menu is shown at the end, either the menu was shown all the
time, or there was a last moment at which it came up - by a button that ended a review or an error, or by starting the
app - and since then it was on the screen and the buttons pressed lead from the first entry to the one shown. -/
theorem C100_position (cfg : Config) (es : List (Env × MenuEvent)) (m : MenuDev) (hend : (m.run cfg es).1.idle) :
    (m.Stays cfg es ∧ (m.run cfg es).1.pos = menuWalk m.pos (menuKeys es)) ∨
    ∃ a env ev b, es = a ++ (env, ev) :: b ∧ (ev = .relaunch ∨ (∃ k, ev = .key k) ∧ ¬ (m.run cfg a).1.idle) ∧
      ((m.run cfg a).1.step cfg env ev).1.Stays cfg b ∧ (m.run cfg es).1.pos = menuWalk 0 (menuKeys b) := by
  induction es generalizing m with
  | nil => exact .inl ⟨hend, rfl⟩
  | cons e es ih =>
    obtain ⟨env, ev⟩ := e
    rcases ih (m.step cfg env ev).1 hend with ⟨h1, h2⟩ | ⟨a, env', ev', b, h1, h2, h3, h4⟩
    · by_cases h : m.idle ∧ ev ≠ .relaunch
      · refine .inl ⟨⟨h.1, h.2, h1⟩, ?_⟩
        rw [show (m.run cfg ((env, ev) :: es)).1.pos = ((m.step cfg env ev).1.run cfg es).1.pos from rfl, h2,
          MenuDev.step_stays h.1 h.2 h1.idle, ← menuWalk_append]
        congr 1
        exact (List.filterMap_append (l := [(env, ev)]) (l' := es)).symm
      · have h' : ev = .relaunch ∨ ¬ m.idle := by
          by_cases hr : ev = .relaunch
          · exact .inl hr
          · exact .inr fun hi => h ⟨hi, hr⟩
        refine .inr ⟨[], env, ev, es, rfl, ?_, h1, ?_⟩
        · rcases h' with h' | h'
          · exact .inl h'
          · cases ev with
            | relaunch => exact .inl rfl
            | apdu buf rx => exact absurd (Dev.apdu_idle h1.idle.1 h1.idle.2) h'
            | key k => exact .inr ⟨⟨k, rfl⟩, h'⟩
        · rw [← MenuDev.step_returns h' h1.idle]
          exact h2
    · exact .inr ⟨(env, ev) :: a, env', ev', b, by rw [h1]; rfl, h2, h3, h4⟩

theorem MenuDev.run_concat {cfg : Config} (a : List (Env × MenuEvent)) (env : Env) (ev : MenuEvent) (m : MenuDev) :
    (m.run cfg (a ++ [(env, ev)])).1 = ((m.run cfg a).1.step cfg env ev).1 := by
  induction a generalizing m with
  | nil => rfl
  | cons e a ih => exact ih _

/-- C100: expert mode is switched deliberately. In any history of a device that starts with its menu's first entry, when an
event other than starting the app changes the mode, the event is both buttons, and the buttons pressed since the menu
came up lead from its first entry to the second: so right was pressed before, after the last review or error. -/
theorem C100_deliberate (cfg : Config) (es : List (Env × MenuEvent)) (m : MenuDev) (hm : m.pos = 0) (env : Env)
    (ev : MenuEvent) (hev : ev ≠ .relaunch)
    (h : ((m.run cfg es).1.step cfg env ev).1.dev.zui.expert ≠ (m.run cfg es).1.dev.zui.expert) :
    ev = .key .both ∧ ∃ a b, es = a ++ b ∧ (m.run cfg a).1.pos = 0 ∧ (m.run cfg a).1.Stays cfg b ∧
      menuWalk 0 (menuKeys b) = 1 ∧ .right ∈ menuKeys b := by
  rcases C100_only_by_user cfg env ev _ h with ⟨h1, h2, h3, h4, _⟩ | ⟨h1, _⟩
  · refine ⟨h1, ?_⟩
    have hright : ∀ ks, menuWalk 0 ks = 1 → .right ∈ ks := by
      intro ks hk
      induction ks with
      | nil => cases hk
      | cons k ks ih =>
        cases k with
        | right => exact List.mem_cons_self
        | left => exact List.mem_cons_of_mem _ (ih hk)
        | both => exact List.mem_cons_of_mem _ (ih hk)
    rcases C100_position cfg es m ⟨h2, h3⟩ with ⟨i1, i2⟩ | ⟨a, env', ev', b, i1, i2, i3, i4⟩
    · rw [hm, h4] at i2
      exact ⟨[], es, rfl, hm, i1, i2.symm, hright _ i2.symm⟩
    · rw [h4] at i4
      have hrun : (m.run cfg (a ++ [(env', ev')])).1 = ((m.run cfg a).1.step cfg env' ev').1 :=
        MenuDev.run_concat a env' ev' m
      refine ⟨a ++ [(env', ev')], b, by rw [i1]; simp, ?_, hrun ▸ i3, i4.symm, hright _ i4.symm⟩
      rw [hrun]
      exact MenuDev.step_returns (i2.imp id And.right) i3.idle
  · exact absurd h1 hev

/-! ### The menu does nothing else -/

/-- The device with its menu and the one without: the same, or the former was left and waits to be started. -/
def MenuDev.Same (m : MenuDev) (d : Dev) : Prop := m.dev = d ∨ m.dev = { d with running := false }

/-- The outputs that are not silent. -/
def heard (os : List Output) : List Output := os.filter (· ≠ .quiet)

theorem heard_quiet (os : List Output) : heard (.quiet :: os) = heard os := by simp [heard]

theorem heard_cons (o : Output) (os : List Output) : heard (o :: os) = heard [o] ++ heard os := by
  simp only [heard, List.filter_cons]
  split <;> simp

theorem MenuDev.step_same (cfg : Config) (env : Env) (ev : MenuEvent) {m : MenuDev} {d : Dev} (h : m.Same d) :
    ((m.step cfg env ev).1.Same d ∧ (m.step cfg env ev).2 = .quiet) ∨
    ∃ e, (m.step cfg env ev).1.Same (d.step cfg env e).1 ∧ (m.step cfg env ev).2 = (d.step cfg env e).2 := by
  obtain ⟨c, p⟩ := m
  rcases h with h | h
  · cases h
    cases ev with
    | relaunch => exact .inr ⟨.relaunch, .inl rfl, rfl⟩
    | apdu buf rx => exact .inr ⟨.apdu buf rx, .inl rfl, rfl⟩
    | key k =>
      simp only [MenuDev.step]
      split
      · cases k with
        | left => exact .inl ⟨.inl rfl, rfl⟩
        | right => exact .inl ⟨.inl rfl, rfl⟩
        | both =>
          dsimp only
          split
          · exact .inr ⟨.expert, .inl rfl, rfl⟩
          · exact .inl ⟨.inr rfl, rfl⟩
          · exact .inl ⟨.inl rfl, rfl⟩
      · exact .inr ⟨k.event, .inl rfl, rfl⟩
  · cases h
    cases ev with
    | relaunch => exact .inr ⟨.relaunch, .inl rfl, rfl⟩
    | apdu buf rx => exact .inl ⟨.inr rfl, rfl⟩
    | key k =>
      left
      simp only [MenuDev.step]
      rw [if_neg (fun hi => by cases hi.1)]
      cases k <;> exact ⟨.inr rfl, rfl⟩

/-- C100: the menu does nothing else. Whatever is done to a device with its menu, there is a history of the device model
without it, in the same environments, in which the same is heard and the device ends up the same - or only waits to be
started, after its user left the app. So what is proved of all histories of the device holds with the menu. -/
theorem C100_same_device (cfg : Config) (es : List (Env × MenuEvent)) (m : MenuDev) (d : Dev) (h : m.Same d) :
    ∃ es' : List (Env × Event), (∀ e ∈ es', e.1 ∈ es.map Prod.fst) ∧
      (m.run cfg es).1.Same (d.run cfg es').1 ∧ heard (m.run cfg es).2 = heard (d.run cfg es').2 := by
  induction es generalizing m d with
  | nil => exact ⟨[], by simp, h, rfl⟩
  | cons e es ih =>
    obtain ⟨env, ev⟩ := e
    rcases MenuDev.step_same cfg env ev h with ⟨h1, h2⟩ | ⟨e', h1, h2⟩
    · obtain ⟨es', i1, i2, i3⟩ := ih _ _ h1
      refine ⟨es', fun e he => List.mem_cons_of_mem _ (i1 e he), i2, ?_⟩
      simp only [MenuDev.run]
      rw [h2, heard_quiet]
      exact i3
    · obtain ⟨es', i1, i2, i3⟩ := ih _ _ h1
      refine ⟨(env, e') :: es', ?_, i2, ?_⟩
      · intro e he
        rcases List.mem_cons.mp he with rfl | he
        · exact List.mem_cons_self
        · exact List.mem_cons_of_mem _ (i1 e he)
      · simp only [MenuDev.run, Dev.run]
        rw [heard_cons, i3, h2, ← heard_cons]

/-- Expert mode is switched on in the menu; the app is started again and left by its menu. -/
def demoMenuRun : List (Env × MenuEvent) :=
  [(Demo.fine, .key .right), (Demo.fine, .key .both), (Demo.fine, .key .right), (Demo.fine, .key .left),
    (Demo.fine, .key .left), (Demo.fine, .relaunch)] ++ List.replicate 9 (Demo.fine, .key .right) ++
    [(Demo.fine, .key .both)]

/-- Satisfiable: the mode is switched in that history, at its second event. -/
example : let m : MenuDev := ⟨Dev.factory ⟨.small, []⟩, 0⟩
    let n := (m.run Demo.bakingApp (demoMenuRun.take 1)).1
    (n.step Demo.bakingApp Demo.fine (.key .both)).1.dev.zui.expert ≠ n.dev.zui.expert := by
  decide +kernel

/-- Satisfiable: a user who switches the mode, walks through the menu and leaves the app. -/
example : let m : MenuDev := ⟨Dev.factory ⟨.small, []⟩, 0⟩
    ((m.run Demo.bakingApp (demoMenuRun.take 5)).1.dev.zui.expert, (m.run Demo.bakingApp (demoMenuRun.take 5)).1.pos) =
      (true, 0) ∧
    ((m.run Demo.bakingApp demoMenuRun).1.dev.zui.expert, (m.run Demo.bakingApp demoMenuRun).1.dev.running,
      (m.run Demo.bakingApp demoMenuRun).1.pos) = (false, false, 5) := by
  decide +kernel

end Tezos
