import Verif.Props.WalkX
import Verif.Props.Crash
/-
C79: a review on the display can be ended with the buttons, without approving it.
-/
namespace Tezos
open Spec

/-! ### The claim -/

/-- Pressing the buttons `bs` ends the pending review without approving it: the last press, and no other, answers the
computer, with one of the two status words for a refusal; no signature is given out, the stored records are as before,
no review is pending any more and the app runs. -/
structure Refused (cfg : Config) (env : Env) (s : Dev) (bs : List Event) : Prop where
  pressed : ∀ b ∈ bs, b.Pressed
  answer : ∃ n out, (s.run cfg (bs.map fun b => (env, b))).2 = List.replicate n .quiet ++ [out] ∧
    (out.reply = some [0x69, 0x86] ∨ out.reply = some [0x69, 0x84]) ∧ out.sig = none ∧ out.fault = none
  view : (s.run cfg (bs.map fun b => (env, b))).1.view = none
  flash : SameFlash s (s.run cfg (bs.map fun b => (env, b))).1
  running : (s.run cfg (bs.map fun b => (env, b))).1.running = true

/-- A press that answers nothing and changes only the display, before others. -/
theorem Refused.cons {cfg : Config} {env : Env} {s : Dev} {b : Event} {z : Zui} {bs : List Event} (hb : b.Pressed)
    (hstep : s.step cfg env b = ({ s with zui := z }, .quiet)) (h : Refused cfg env { s with zui := z } bs) :
    Refused cfg env s (b :: bs) := by
  obtain ⟨h1, ⟨n, out, h2, h3⟩, h4, h5, h6⟩ := h
  have hr : s.run cfg ((b :: bs).map fun b => (env, b)) =
      ((({ s with zui := z } : Dev).run cfg (bs.map fun b => (env, b))).1,
        .quiet :: (({ s with zui := z } : Dev).run cfg (bs.map fun b => (env, b))).2) := by
    simp only [List.map_cons, Dev.run, hstep]
  refine ⟨fun x hx => ?_, ⟨n + 1, out, ?_, h3⟩, ?_, ?_, ?_⟩
  · rcases List.mem_cons.mp hx with rfl | hx
    · exact hb
    · exact h1 x hx
  · rw [hr, h2, List.replicate_succ]
    rfl
  · rw [hr]; exact h4
  · rw [hr]; exact ⟨h5.1, h5.2, h5.3, h5.4⟩
  · rw [hr]; exact h6

/-- Both buttons on the reject item. -/
theorem Rejects.refused {cfg : Config} {env : Env} {s : Dev} {v : View} (h : Rejects s .both v) :
    Refused cfg env s [.both] := by
  obtain ⟨h1, h2, h3, h4, -⟩ := C44_rejection cfg env s .both v h
  have hx : (s.step cfg env .both).2.fault = none ∧ (s.step cfg env .both).1.running = true := by
    obtain ⟨hrun, -, ⟨k, l1, l2, hscr⟩, hact, hview⟩ := h
    have hstep : s.step cfg env .both = s.pressBoth env := by simp only [Dev.step, hrun, if_true, hscr]
    have hrej : s.reject = ({ v.reject s.idle with view := none },
        ⟨some (statusWord .commandNotAllowed), none, none⟩) := by
      unfold Dev.reject
      dsimp only
      split
      · rename_i hw
        rw [hview] at hw
        cases hw
      · rename_i w hw
        rw [hview] at hw
        cases hw
        rfl
    have hrun' : (v.reject s.idle).running = true := by
      cases v <;> exact hrun
    rw [hstep]
    unfold Dev.pressBoth
    simp only [hact, hrej]
    split
    · exact ⟨rfl, hrun'⟩
    · exact ⟨rfl, hrun'⟩
  refine ⟨fun b hb => ?_, ⟨0, _, rfl, .inl h1, h2, hx.1⟩, h3, h4, hx.2⟩
  rw [List.mem_singleton] at hb
  subst hb
  exact .inr (.inr rfl)

/-- Closing an error screen with a press that does so. -/
theorem refused_error {cfg : Config} {env : Env} {s : Dev} {v : View} {b : Event} (hb : b.Pressed)
    (hrun : s.running = true) (hv : s.view = some v) (hstep : s.step cfg env b = s.acceptError) :
    Refused cfg env s [b] := by
  have ha : s.acceptError = ({ s.idle with view := none }, ⟨some (statusWord .dataInvalid), none, none⟩) := by
    unfold Dev.acceptError
    simp only [hv]
    rfl
  have hr : s.run cfg ([b].map fun b => (env, b)) =
      ({ s.idle with view := none }, [⟨some (statusWord .dataInvalid), none, none⟩]) := by
    simp only [List.map_cons, List.map_nil, Dev.run, hstep, ha]
  refine ⟨fun x hx => ?_, ⟨0, _, by rw [hr]; rfl, .inr (by decide), rfl, rfl⟩, by rw [hr],
    by rw [hr]; exact ⟨rfl, rfl, rfl, rfl⟩, by rw [hr]; exact hrun⟩
  rw [List.mem_singleton] at hx
  exact hx ▸ hb

/-! ### The two-line display -/

theorem handleUi_same {t : Bytes} {m : Nat} {p q : UInt8} {a b : Bytes} {n k : UInt8}
    (h1 : handleUi t m p = .ok (a, n)) (h2 : handleUi t m q = .ok (b, k)) : n = k := by
  unfold handleUi at h1 h2
  split at h1
  · cases h1
  · rename_i hm
    rw [if_neg hm] at h2
    dsimp only at h1 h2
    split at h1
    · rename_i hl
      rw [if_pos hl] at h2
      split at h1
      · cases h1
      · split at h2
        · cases h2
        · cases h1; cases h2; rfl
    · rename_i hl
      rw [if_neg hl] at h2
      cases h1; cases h2; rfl

theorem renderItem_count {v : Viewer} {i p q : Nat} {x y : Bytes × Bytes × Nat} (h1 : renderItem v i p = .ok x)
    (h2 : renderItem v i q = .ok y) : x.2.2 = y.2.2 := by
  unfold renderItem at h1 h2
  simp only [ebind_ok, Prod.exists, ePure, Except.ok.injEq] at h1 h2
  obtain ⟨f, hf, t, m, hm, rfl⟩ := h1
  obtain ⟨f', hf', t', m', hm', rfl⟩ := h2
  rw [hf] at hf'
  cases hf'
  rw [handleUi_same hm hm']

theorem renderItem_lt {v : Viewer} {i p : Nat} {x : Bytes × Bytes × Nat} (h : renderItem v i p = .ok x) : x.2.2 < 256 := by
  unfold renderItem at h
  simp only [ebind_ok, Prod.exists, ePure, Except.ok.injEq] at h
  obtain ⟨f, hf, t, m, hm, rfl⟩ := h
  exact m.toNat_lt

/-- What a review on the two-line display is like after it has been drawn. -/
structure Drawn (w : Viewer) (num : UInt8) (z : Zui) : Prop where
  small : z.large = none
  screen : ∃ k l1 l2, z.screen = .review k l1 l2
  count : z.itemCount = num.toNat + 1
  pages : z.pageCount = 1 ∨
    z.itemIdx ≠ num.toNat ∧ ∀ q x, renderItem w z.itemIdx q = .ok x → x.2.2 = z.pageCount
  few : z.pageCount < 256

/-- How drawing a review ends, when no text is too long and none aborts. -/
theorem reviewUpdate_ends {w : Viewer} (hc : w.Calm) (hs : w.Short) {z : Zui} (hl : z.large = none) :
    (∃ z', reviewUpdate (some w) z = .failed z' ∧ z'.large = none) ∨
    (∃ z', reviewUpdate (some w) z = .rejected z') ∨
    ∃ num z', reviewUpdate (some w) z = .shown z' ∧ w.numItems = .ok num ∧ Drawn w num z' ∧ z'.itemIdx = z.itemIdx ∧
      z'.pageIdx ≤ z.pageIdx ∧
      ((∀ q x, renderItem w z.itemIdx q = .ok x → z.pageIdx ≤ x.2.2) → z.itemIdx < num.toNat → z'.pageIdx = z.pageIdx) := by
  have hcalm := reviewUpdate_calm (v := some w) (fun _ h => Option.some.inj h ▸ ⟨hc, hs⟩) z
  generalize hu : reviewUpdate (some w) z = u at hcalm
  unfold reviewUpdate at hu
  simp only at hu
  split at hu
  · exact absurd hu.symm hcalm.1
  · subst hu; exact .inl ⟨_, rfl, hl⟩
  · rename_i num hn
    split at hu
    · rename_i hi
      subst hu
      exact .inr (.inr ⟨num, _, rfl, hn, ⟨hl, ⟨_, _, _, rfl⟩, rfl, .inl rfl, show 1 < 256 by decide⟩, rfl, Nat.zero_le _,
        fun _ h => absurd hi (Nat.ne_of_lt h)⟩)
    split at hu
    · rename_i hi
      subst hu
      refine .inr (.inr ⟨num, _, rfl, hn, ⟨hl, ⟨_, _, _, rfl⟩, rfl, .inl rfl, show 1 < 256 by decide⟩, rfl, Nat.zero_le _,
        fun _ h => ?_⟩)
      exact absurd (show z.itemIdx = num.toNat + 1 from hi) (by omega)
    · unfold updateLoop at hu
      split at hu
      · exact absurd hu.symm hcalm.1
      · subst hu; exact .inr (.inl ⟨_, rfl⟩)
      · subst hu; exact .inl ⟨_, rfl, hl⟩
      · rename_i k1 t1 n1 hr1
        dsimp only at hu hr1
        generalize hz : (if n1 ≠ 0 ∧ z.pageIdx > n1 then
          ({ z with itemCount := num.toNat + 1, pageIdx := n1 - 1, pageCount := n1 } : Zui)
          else { z with itemCount := num.toNat + 1, pageCount := n1 }) = z1 at hu
        have hz1 : z1.large = none ∧ z1.itemIdx = z.itemIdx ∧ z1.itemCount = num.toNat + 1 ∧ z1.pageIdx ≤ z.pageIdx ∧
            (z.pageIdx ≤ n1 → z1.pageIdx = z.pageIdx) := by
          rw [← hz]
          split
          · rename_i h
            exact ⟨hl, rfl, rfl, by simp only; omega, fun h' => by omega⟩
          · exact ⟨hl, rfl, rfl, Nat.le_refl _, fun _ => rfl⟩
        obtain ⟨h1, h2, h3, h4, h5⟩ := hz1
        split at hu
        · exact absurd hu.symm hcalm.1
        · subst hu; exact .inr (.inl ⟨_, rfl⟩)
        · subst hu; exact .inl ⟨_, rfl, h1⟩
        · rename_i k2 t2 n2 hr2
          rw [if_neg (renderItem_pages hs hr2)] at hu
          subst hu
          refine .inr (.inr ⟨num, _, rfl, hn, ⟨h1, ⟨_, _, _, rfl⟩, h3, .inr ⟨?_, fun q x hx => ?_⟩, renderItem_lt hr2⟩,
            h2, h4, fun hp _ => h5 (hp 0 _ hr1)⟩)
          · rw [h2]
            assumption
          · exact renderItem_count hx hr2

/-- The review `v` is on the two-line display. -/
structure OnSmall (env : Env) (w : Viewer) (v : View) (s : Dev) : Prop where
  running : s.running = true
  view : s.view = some v
  viewer : s.viewer env = some w
  small : s.zui.large = none
  screen : ∃ k l1 l2, s.zui.screen = .review k l1 l2

/-- A press that redraws the review: if that fails or the review rejects itself, it can be ended. -/
theorem OnSmall.moved {cfg : Config} {env : Env} {w : Viewer} {v : View} {s : Dev} (h : OnSmall env w v s)
    (hc : w.Calm) (hs : w.Short) {b : Event} (hb : b.Pressed) {z : Zui} (hz : z.large = none)
    (hstep : s.step cfg env b = s.redraw (reviewUpdate (some w) z)) :
    (∃ bs, Refused cfg env s bs) ∨
    ∃ num z', w.numItems = .ok num ∧ Drawn w num z' ∧ OnSmall env w v { s with zui := z' } ∧
      (∀ bs, Refused cfg env { s with zui := z' } bs → Refused cfg env s (b :: bs)) ∧ z'.itemIdx = z.itemIdx ∧
      z'.pageIdx ≤ z.pageIdx ∧
      ((∀ q x, renderItem w z.itemIdx q = .ok x → z.pageIdx ≤ x.2.2) → z.itemIdx < num.toNat →
        z'.pageIdx = z.pageIdx) := by
  rcases reviewUpdate_ends hc hs hz with ⟨z', hu, hl⟩ | ⟨z', hu⟩ | ⟨num, z', hu, hn, hd, h1, h2, h3⟩
  · rw [hu] at hstep
    refine .inl ⟨[b, .right], Refused.cons hb hstep (refused_error (v := v) (.inr (.inl rfl)) h.running h.view ?_)⟩
    simp only [Dev.step, h.running, if_true, Dev.onError, Zui.closesRight, hl, Option.isNone_none]
  · rw [hu] at hstep
    refine .inl ⟨[b], ⟨fun x hx => ?_, ⟨0, ⟨some (statusWord .commandNotAllowed), none, none⟩, ?_, .inl ?_, rfl, rfl⟩,
      ?_, ?_, ?_⟩⟩
    · rw [List.mem_singleton] at hx
      exact hx ▸ hb
    · simp only [List.map_cons, List.map_nil, Dev.run, hstep, Dev.redraw, Dev.reject, h.view]
      rfl
    · decide
    · simp only [List.map_cons, List.map_nil, Dev.run, hstep, Dev.redraw, Dev.reject, h.view]
    · have := v.reject_flash ({ s with zui := { z' with screen := .idle } } : Dev)
      simp only [List.map_cons, List.map_nil, Dev.run, hstep, Dev.redraw, Dev.reject, h.view]
      cases v <;> exact ⟨rfl, rfl, rfl, rfl⟩
    · simp only [List.map_cons, List.map_nil, Dev.run, hstep, Dev.redraw, Dev.reject, h.view]
      cases v <;> exact h.running
  · rw [hu] at hstep
    exact .inr ⟨num, z', hn, hd, ⟨h.running, h.view, h.viewer, hd.small, hd.screen⟩,
      fun bs hbs => Refused.cons hb hstep hbs, h1, h2, h3⟩

theorem OnSmall.right {cfg : Config} {env : Env} {w : Viewer} {v : View} {s : Dev} (h : OnSmall env w v s) :
    s.step cfg env .right = s.redraw (reviewUpdate (some w) s.zui.pagingIncrease) := by
  obtain ⟨k, l1, l2, hscr⟩ := h.screen
  simp only [Dev.step, h.running, if_true, hscr, h.viewer, Zui.goRight, h.small, Zui.right]

theorem OnSmall.left {cfg : Config} {env : Env} {w : Viewer} {v : View} {s : Dev} (h : OnSmall env w v s) :
    s.step cfg env .left = s.redraw (reviewUpdate (some w) s.zui.pagingDecrease) := by
  obtain ⟨k, l1, l2, hscr⟩ := h.screen
  simp only [Dev.step, h.running, if_true, hscr, h.viewer, Zui.goLeft, h.small, Zui.left]

/-- On the reject item. -/
theorem OnSmall.reject {cfg : Config} {env : Env} {w : Viewer} {v : View} {s : Dev} (h : OnSmall env w v s)
    (hi : s.zui.itemIdx = s.zui.itemCount) : ∃ bs, Refused cfg env s bs := by
  refine ⟨[.both], Rejects.refused (v := v) ⟨h.running, rfl, h.screen, ?_, h.view⟩⟩
  rw [Zui.chosen, h.small]
  unfold Zui.action
  rw [if_neg (by omega), if_pos hi]

/-- Going left from beyond the reject item. -/
theorem OnSmall.down {cfg : Config} {env : Env} {w : Viewer} {v : View} (hc : w.Calm) (hs : w.Short) {num : UInt8}
    (hn : w.numItems = .ok num) (k : Nat) {s : Dev} (h : OnSmall env w v s) (hd : Drawn w num s.zui)
    (hi : num.toNat + 1 ≤ s.zui.itemIdx) (hk : (s.zui.itemIdx - (num.toNat + 1)) * 256 + s.zui.pageIdx ≤ k) :
    ∃ bs, Refused cfg env s bs := by
  induction k generalizing s with
  | zero => exact h.reject (by rw [hd.count]; omega)
  | succ k ih =>
    by_cases he : s.zui.itemIdx = num.toNat + 1
    · exact h.reject (by rw [hd.count, he])
    rcases h.moved hc hs (cfg := cfg) (b := .left) (.inl rfl) ((Zui.pagingDecrease_large _).trans h.small) h.left with
      hx | ⟨num', z', hn', hd', h', hbs, h1, h2, -⟩
    · exact hx
    · rw [hn] at hn'
      cases hn'
      have hm : num.toNat + 1 ≤ z'.itemIdx ∧ (z'.itemIdx - (num.toNat + 1)) * 256 + z'.pageIdx ≤ k := by
        unfold Zui.pagingDecrease at h1 h2
        split at h1
        · rename_i hp
          rw [if_pos hp] at h2
          simp only at h1 h2
          omega
        · rename_i hp
          rw [if_neg hp] at h2
          rw [if_pos (by omega)] at h1 h2
          simp only at h1 h2
          omega
      obtain ⟨bs, hr⟩ := ih h' hd' hm.1 hm.2
      exact ⟨_, hbs _ hr⟩

/-- Going right up to the reject item. -/
theorem OnSmall.up {cfg : Config} {env : Env} {w : Viewer} {v : View} (hc : w.Calm) (hs : w.Short) {num : UInt8}
    (hn : w.numItems = .ok num) (k : Nat) {s : Dev} (h : OnSmall env w v s) (hd : Drawn w num s.zui)
    (hi : s.zui.itemIdx ≤ num.toNat + 1)
    (hk : (num.toNat + 1 - s.zui.itemIdx) * 256 + (255 - s.zui.pageIdx) ≤ k) :
    ∃ bs, Refused cfg env s bs := by
  induction k generalizing s with
  | zero => exact h.reject (by rw [hd.count]; omega)
  | succ k ih =>
    by_cases he : s.zui.itemIdx = num.toNat + 1
    · exact h.reject (by rw [hd.count, he])
    rcases h.moved hc hs (cfg := cfg) (b := .right) (.inr (.inl rfl)) ((Zui.pagingIncrease_large _).trans h.small)
      h.right with hx | ⟨num', z', hn', hd', h', hbs, h1, h2, h3⟩
    · exact hx
    · rw [hn] at hn'
      cases hn'
      have hm : z'.itemIdx ≤ num.toNat + 1 ∧ (num.toNat + 1 - z'.itemIdx) * 256 + (255 - z'.pageIdx) ≤ k := by
        unfold Zui.pagingIncrease at h1 h2 h3
        split at h1
        · rename_i hp
          rw [if_pos hp] at h2 h3
          simp only at h1 h2 h3
          obtain ⟨hne, hpages⟩ := hd.pages.resolve_left (by omega)
          have hfew := hd.few
          have := h3 (fun q x hx => by rw [hpages q x hx]; omega) (by omega)
          omega
        · rename_i hp
          rw [if_neg hp] at h2
          rw [if_pos (by have := hd.count; omega)] at h1 h2
          simp only at h1 h2
          omega
      obtain ⟨bs, hr⟩ := ih h' hd' hm.1 hm.2
      exact ⟨_, hbs _ hr⟩

/-- From wherever a review is on the two-line display, the buttons end it. -/
theorem OnSmall.ends {cfg : Config} {env : Env} {w : Viewer} {v : View} (hc : w.Calm) (hs : w.Short) {s : Dev}
    (h : OnSmall env w v s) : ∃ bs, Refused cfg env s bs := by
  rcases h.moved hc hs (cfg := cfg) (b := .right) (.inr (.inl rfl)) ((Zui.pagingIncrease_large _).trans h.small)
    h.right with hx | ⟨num, z', hn, hd, h', hbs, -⟩
  · exact hx
  · rcases Nat.le_total z'.itemIdx (num.toNat + 1) with hi | hi
    · obtain ⟨bs, hr⟩ := h'.up (cfg := cfg) hc hs hn _ hd hi (Nat.le_refl _)
      exact ⟨_, hbs _ hr⟩
    · obtain ⟨bs, hr⟩ := h'.down (cfg := cfg) hc hs hn _ hd hi (Nat.le_refl _)
      exact ⟨_, hbs _ hr⟩

/-! ### A pending review is on the display -/

/-- What is drawn is not the idle menu. -/
def Upd.Lit (u : Upd) : Prop := ∀ z, u = .shown z → z.screen ≠ .idle

theorem updateLoop_lit (v : Viewer) (f : Nat) (z : Zui) : (updateLoop v f z).Lit := by
  induction f generalizing z with
  | zero => exact fun z h => by simp [updateLoop] at h
  | succ f ih =>
    intro z' h
    unfold updateLoop at h
    split at h
    · cases h
    · cases h
    · cases h
    · dsimp only at h
      split at h
      · cases h
      · cases h
      · cases h
      · split at h
        · exact ih _ _ h
        · cases h
          exact fun h => by cases h

theorem reviewUpdate_lit (v : Option Viewer) (z : Zui) : (reviewUpdate v z).Lit := by
  intro z' h
  unfold reviewUpdate at h
  split at h
  · cases h
  · split at h
    · cases h
    · cases h
    · dsimp only at h
      split at h
      · cases h
        exact fun h => by cases h
      split at h
      · cases h
        exact fun h => by cases h
      · exact updateLoop_lit _ _ _ _ h

theorem Zui.ofResX_lit (z : Zui) (l : LargeUi) (e : XError) (r : ResX) : (z.ofResX l e r).Lit := by
  intro z' h
  cases r <;> simp only [Zui.ofResX, Upd.shown.injEq, reduceCtorEq] at h
  rename_i x
  subst h
  obtain ⟨_, _, _, hx⟩ := x.screen_review
  rw [Zui.atStep]
  simp only
  rw [hx]
  exact fun h => by cases h

theorem Zui.openReview_lit (v : Viewer) (z : Zui) : (z.openReview v).Lit := by
  unfold Zui.openReview
  split
  · exact reviewUpdate_lit _ _
  · rename_i l _
    exact Zui.ofResX_lit z l .ok (.on l.x.showReview)

theorem Zui.goLeft_lit (v : Option Viewer) (z : Zui) : (z.goLeft v).Lit := by
  unfold Zui.goLeft
  split
  · exact reviewUpdate_lit _ _
  · exact Zui.ofResX_lit _ _ _ _

theorem Zui.goRight_lit (v : Option Viewer) (z : Zui) : (z.goRight v).Lit := by
  unfold Zui.goRight
  split
  · exact reviewUpdate_lit _ _
  · exact Zui.ofResX_lit _ _ _ _

/-- A review pending in the running app is on the display, or the error screen is. -/
def Dev.Awake (s : Dev) : Prop := s.running = true → s.view ≠ none → s.zui.screen ≠ .idle

theorem Dev.redraw_awake {u : Upd} (h : u.Lit) (s : Dev) : (s.redraw u).1.Awake := by
  intro hr hv
  unfold Dev.redraw at hr hv ⊢
  split
  · exact h _ rfl
  · exact fun h => by cases h
  · exact fun h => by cases h
  · cases hr
  · cases hr

theorem Dev.onError_awake {s : Dev} (h : s.Awake) (c : Bool) (f : XError → XError) : (s.onError c f).1.Awake := by
  intro hr hv
  unfold Dev.onError at hr hv ⊢
  split
  · rename_i hc
    rw [if_pos hc, s.acceptError_view] at hv
    exact absurd rfl hv
  · rename_i hc
    rw [if_neg hc] at hr hv
    exact h hr hv

theorem Dev.pressBoth_awake {s : Dev} (h : s.Awake) (env : Env) : (s.pressBoth env).1.Awake := by
  have key : ∀ r : Dev × Output, r.1.Awake →
      (if r.1.running ∧ r.1.zui.jumps then
        let j := r.1.redraw (r.1.zui.expertJump (r.1.viewer env))
        ((j.1, ⟨r.2.reply <|> j.2.reply, r.2.sig, r.2.fault <|> j.2.fault⟩) : Dev × Output)
      else r).1.Awake := by
    intro r hr
    split
    · exact Dev.redraw_awake (reviewUpdate_lit _ _) _
    · exact hr
  unfold Dev.pressBoth
  dsimp only
  split
  · refine key _ ?_
    intro _ hv
    exact absurd (s.approve_view env) hv
  · refine key _ ?_
    intro _ hv
    exact absurd s.reject_view hv
  · exact key _ h

theorem Dev.step_awake {cfg : Config} {env : Env} {ev : Event} {s : Dev} (h : s.Awake) : (s.step cfg env ev).1.Awake := by
  cases ev with
  | relaunch => exact fun _ hv => absurd rfl hv
  | apdu buf rx =>
    intro hr hv
    rcases s.apdu_cases cfg env buf rx with ⟨hx, _⟩ | ⟨c, hrec, hx⟩
    · rw [hx] at hr hv ⊢
      exact h hr hv
    have hview : (s.step cfg env (.apdu buf rx)).1.view =
        (s.exec cfg env c (buf.getD 2 0) (buf.getD 3 0) (apduPayload buf)).st.view := by
      rw [hx]; exact Res.deliver_view _
    have hzui : (s.step cfg env (.apdu buf rx)).1.zui =
        (s.exec cfg env c (buf.getD 2 0) (buf.getD 3 0) (apduPayload buf)).st.zui := by
      rw [hx]; exact (Res.deliver_kept _).2
    rw [hview] at hv
    rw [hzui]
    cases s.exec_cases cfg env c (buf.getD 2 0) (buf.getD 3 0) (apduPayload buf) with
    | still p u hs _ =>
      rw [hs.1] at hv ⊢
      exact h hrec.running hv
    | opened v p u u' ho hout hsig hst hupl =>
      rw [hst] at hv ⊢
      have hlit := Zui.openReview_lit (v.viewer env.cr (s.withUpload p u).upl.buf) (s.withUpload p u).zui
      have hfault : ∀ f, (s.exec cfg env c (buf.getD 2 0) (buf.getD 3 0) (apduPayload buf)).out ≠ .fault f := by
        intro f hf
        rw [hx] at hr
        unfold Res.deliver at hr
        rw [hf] at hr
        cases hr
      rw [hout] at hfault
      unfold Dev.show at hv hfault ⊢
      dsimp only at hv hfault ⊢
      split
      · rename_i z hz
        exact hlit z hz
      · exact fun h => by cases h
      · exact fun h => by cases h
      · rename_i hz
        rw [hz] at hfault
        exact absurd rfl (hfault _)
      · rename_i hz
        rw [hz] at hfault
        exact absurd rfl (hfault _)
    | reset p hc hp hl hr' =>
      rw [hr'] at hv ⊢
      rw [(Dev.resetHwm_ram _ _ _).2]
      rw [Dev.resetHwm_view] at hv
      exact h hrec.running hv
    | auto hh u u' q2 first data ref k digest hc hu hcv hp hk hd hm hout hsig hst =>
      rw [hst] at hv ⊢
      rcases (s.withUpload s.path u).autoSign_cases env hh digest data (specDecide data) (fun _ _ => specDecide_error) with
        ⟨hy, _⟩ | ⟨b, w, _, _, ⟨hy, _⟩ | ⟨_, k, sig, _, _, hy⟩⟩ <;> rw [hy] at hv ⊢ <;> exact h hrec.running hv
  | left =>
    simp only [Dev.step]
    split
    · split
      · exact Dev.redraw_awake (Zui.goLeft_lit _ _) _
      · exact Dev.onError_awake h _ _
      · exact h
    · exact h
  | right =>
    simp only [Dev.step]
    split
    · split
      · exact Dev.redraw_awake (Zui.goRight_lit _ _) _
      · exact Dev.onError_awake h _ _
      · exact h
    · exact h
  | both =>
    simp only [Dev.step]
    split
    · split
      · exact Dev.pressBoth_awake h env
      · exact Dev.onError_awake h _ _
      · exact h
    · exact h
  | expert =>
    simp only [Dev.step]
    split
    · exact h
    · exact h

theorem Dev.run_awake {cfg : Config} {es : List (Env × Event)} {s : Dev} (h : s.Awake) : (s.run cfg es).1.Awake := by
  induction es generalizing s with
  | nil => exact h
  | cons e es ih => exact ih (Dev.step_awake h)

theorem Dev.run_display {cfg : Config} {es : List (Env × Event)} {s : Dev} :
    (s.run cfg es).1.zui.display = s.zui.display := by
  induction es generalizing s with
  | nil => rfl
  | cons e es ih => exact (ih (s := (s.step cfg e.1 e.2).1)).trans (s.step_display cfg e.1 e.2)

/-! ### C79 -/

/-- C79 on the Nano S: whatever the computer and the user did before (with an outside world that behaves, `Firm`), a
pending review can be ended with the buttons, without approving it. -/
theorem C79_small (cfg : Config) (new : NewDevice) (hd : new.display = .small)
    (hu : new.upload.length = uploadCapacity) (es : List (Env × Event)) (hf : ∀ e ∈ es, Firm e.1 e.2) (s : Dev)
    (hs : s = ((Dev.factory new).run cfg es).1) (hr : s.running = true) (v : View) (hv : s.view = some v) (env : Env)
    (hc : env.cr.Sized) : ∃ bs, Refused cfg env s bs := by
  subst hs
  have hlarge : ((Dev.factory new).run cfg es).1.zui.large = none := by
    have : ((Dev.factory new).run cfg es).1.zui.display = new.display := Dev.run_display.trans (Zui.init_display _)
    rw [hd] at this
    exact Zui.display_small.mp this
  have hidle : ((Dev.factory new).run cfg es).1.zui.screen ≠ .idle :=
    Dev.run_awake (s := Dev.factory new) (fun _ h => absurd rfl h) hr (by rw [hv]; simp)
  have hfirm := ((Dev.Sturdy.factory hu).run (cfg := cfg) hf).view v hv
  generalize ((Dev.factory new).run cfg es).1 = s at *
  cases hscr : s.zui.screen with
  | idle => exact absurd hscr hidle
  | error =>
    refine ⟨[.right], refused_error (v := v) (.inr (.inl rfl)) hr hv ?_⟩
    simp only [Dev.step, hr, if_true, hscr, Dev.onError, Zui.closesRight, hlarge, Option.isNone_none]
  | review k l1 l2 =>
    exact OnSmall.ends (w := v.viewer env.cr s.upl.buf) (View.viewer_calm hc hfirm _) (View.viewer_short hc hfirm.tidy _)
      (v := v) ⟨hr, hv, by rw [Dev.viewer, hv]; rfl, hlarge, ⟨_, _, _, hscr⟩⟩

/-! ### The larger display -/

/-- The review `v` is on the larger display, at a step. -/
structure OnLarge (env : Env) (w : Viewer) (v : View) (s : Dev) (l : LargeUi) : Prop where
  running : s.running = true
  view : s.view = some v
  viewer : s.viewer env = some w
  large : s.zui.large = some l
  screen : ∃ k l1 l2, s.zui.screen = .review k l1 l2

theorem OnLarge.right {cfg : Config} {env : Env} {w : Viewer} {v : View} {s : Dev} {l : LargeUi}
    (h : OnLarge env w v s l) : s.step cfg env .right =
      s.redraw (s.zui.ofResX l (if l.x.step = .title then .ok else .lost) (l.x.right (some w))) := by
  obtain ⟨k, l1, l2, hscr⟩ := h.screen
  simp only [Dev.step, h.running, if_true, hscr, h.viewer, Zui.goRight, h.large]

theorem OnLarge.left {cfg : Config} {env : Env} {w : Viewer} {v : View} {s : Dev} {l : LargeUi}
    (h : OnLarge env w v s l) : s.step cfg env .left =
      s.redraw (s.zui.ofResX l (if l.x.step = .item then .ok else .lost) (l.x.left (some w))) := by
  obtain ⟨k, l1, l2, hscr⟩ := h.screen
  simp only [Dev.step, h.running, if_true, hscr, h.viewer, Zui.goLeft, h.large]

/-- Both buttons at a step that is neither the approval nor the rejection. -/
theorem OnLarge.nothing {cfg : Config} {env : Env} {w : Viewer} {v : View} {s : Dev} {l : LargeUi}
    (h : OnLarge env w v s l) (hx : l.x.action = .nothing) : s.step cfg env .both = (s, .quiet) := by
  obtain ⟨k, l1, l2, hscr⟩ := h.screen
  simp only [Dev.step, h.running, if_true, hscr, Dev.pressBoth, Zui.chosen, h.large, hx, Zui.jumps]
  simp

theorem OnLarge.at {env : Env} {w : Viewer} {v : View} {s : Dev} {l : LargeUi} (h : OnLarge env w v s l) (x : ZuiX) :
    OnLarge env w v { s with zui := s.zui.atStep l x } { l with x := x } :=
  ⟨h.running, h.view, h.viewer, rfl, x.screen_review⟩

/-- Another environment with the same hash functions. -/
theorem OnLarge.env {env env' : Env} (hc : env'.cr = env.cr) {w : Viewer} {v : View} {s : Dev} {l : LargeUi}
    (h : OnLarge env w v s l) : OnLarge env' w v s l :=
  ⟨h.running, h.view, by rw [← h.viewer, Dev.viewer, Dev.viewer, hc], h.large, h.screen⟩

/-- Before the item after `k`: at the title, or at one of the items up to `k`. -/
def Before (w : Viewer) (num : UInt8) (k : Nat) (x : ZuiX) : Prop :=
  (x.step = .title ∧ x.inside = false) ∨ ∃ i ≤ k, AtItem w num x i

theorem title_right {v : Viewer} {num : UInt8} (hv : FitsX v num) {x : ZuiX} (hs : x.step = .title)
    (hi : x.inside = false) {f : Field} (hf : v.item 0 = .ok f) :
    ∃ z', x.right (some v) = .on z' ∧ AtItem v num z' 0 := by
  obtain ⟨z', h1, h2⟩ := AtItem.entered hv x.pagingInit (.inl rfl) (f := f) hf
  refine ⟨_, ?_, h2⟩
  unfold ZuiX.right
  rw [hs]
  show x.loopStart (some v) = _
  unfold ZuiX.loopStart
  rw [if_neg (by simp [hi]), h1]
  rfl

theorem AtItem.home' {v : Viewer} {num : UInt8} {z : ZuiX} (h : AtItem v num z 0) :
    ∃ z', z.left (some v) = .on z' ∧ z'.step = .title ∧ z'.inside = false := by
  have hc : ¬ z.canDecrease = true := by simp [ZuiX.canDecrease, h.idx, h.page]
  refine ⟨{ z with inside := false, step := .title }, ?_, rfl, rfl⟩
  unfold ZuiX.left
  rw [h.step]
  show z.loopStart (some v) = _
  unfold ZuiX.loopStart
  rw [if_pos h.inside, if_neg hc]

theorem Before.right {w : Viewer} {num : UInt8} (hv : FitsX w num) {k : Nat} (hk : k + 1 < num.toNat)
    (hok : ∀ i ≤ k, ∃ f, w.item (UInt8.ofNat i) = .ok f) (hbad : w.item (UInt8.ofNat (k + 1)) = .error .unknown)
    {x : ZuiX} (h : Before w num k x) :
    (∃ x', x.right (some w) = .on x' ∧ Before w num k x') ∨ ∃ x', x.right (some w) = .lost x' := by
  rcases h with ⟨hs, hi⟩ | ⟨i, hi, h⟩
  · obtain ⟨f, hf⟩ := hok 0 (Nat.zero_le _)
    obtain ⟨x', h1, h2⟩ := title_right hv hs hi hf
    exact .inl ⟨x', h1, .inr ⟨0, Nat.zero_le _, h2⟩⟩
  · rcases Nat.lt_or_ge i k with hlt | hge
    · obtain ⟨f, hf⟩ := hok (i + 1) hlt
      obtain ⟨x', h1, h2⟩ := h.next hv (by omega) hf
      exact .inl ⟨x', h1, .inr ⟨i + 1, hlt, h2⟩⟩
    · obtain rfl : i = k := by omega
      exact .inr (h.fails hv (by omega) hbad)

theorem Before.left {w : Viewer} {num : UInt8} (hv : FitsX w num) {k : Nat}
    (hok : ∀ i ≤ k, ∃ f, w.item (UInt8.ofNat i) = .ok f) {x : ZuiX} (h : Before w num k x) :
    ∃ x', x.left (some w) = .on x' ∧ Before w num k x' := by
  rcases h with ⟨hs, hi⟩ | ⟨i, hi, h⟩
  · exact ⟨x, by unfold ZuiX.left; rw [hs], .inl ⟨hs, hi⟩⟩
  · cases i with
    | zero =>
      obtain ⟨x', h1, h2⟩ := h.home'
      exact ⟨x', h1, .inl h2⟩
    | succ i =>
      obtain ⟨f, hf⟩ := hok i (by omega)
      obtain ⟨x', h1, h2⟩ := h.back hv hf
      exact ⟨x', h1, .inr ⟨i, by omega, h2⟩⟩

theorem Before.action {w : Viewer} {num : UInt8} {k : Nat} {x : ZuiX} (h : Before w num k x) : x.action = .nothing := by
  unfold ZuiX.action
  rcases h with ⟨hs, hi⟩ | ⟨i, hi, h⟩
  · rw [hs]
  · rw [h.step]

/-- No buttons lead past an item that cannot be displayed. -/
theorem OnLarge.stuck {cfg : Config} {w : Viewer} {v : View} {num : UInt8} (hv : FitsX w num) {k : Nat}
    (hk : k + 1 < num.toNat) (hok : ∀ i ≤ k, ∃ f, w.item (UInt8.ofNat i) = .ok f)
    (hbad : w.item (UInt8.ofNat (k + 1)) = .error .unknown) {cr : Crypto} (bs : List (Env × Event))
    (hb : ∀ e ∈ bs, e.2.Pressed ∧ e.1.cr = cr) {env : Env} (hc : env.cr = cr) {s : Dev} {l : LargeUi}
    (h : OnLarge env w v s l) (hx : Before w num k l.x) :
    (s.run cfg bs).2 = bs.map (fun _ => .quiet) ∧ (s.run cfg bs).1.view = some v := by
  induction bs generalizing s l with
  | nil => exact ⟨rfl, h.view⟩
  | cons e bs ih =>
    obtain ⟨e, ev⟩ := e
    have hb' : ∀ e ∈ bs, e.2.Pressed ∧ e.1.cr = cr := fun x hx => hb x (List.mem_cons_of_mem _ hx)
    obtain ⟨hp, he⟩ := hb _ (List.mem_cons_self ..)
    simp only at hp he
    have h' := h.env (env' := e) (he.trans hc.symm)
    have go : ∀ {z : Zui}, s.step cfg e ev = ({ s with zui := z }, .quiet) →
        ((({ s with zui := z } : Dev).run cfg bs).2 = bs.map (fun _ => .quiet) ∧
          (({ s with zui := z } : Dev).run cfg bs).1.view = some v) →
        (s.run cfg ((e, ev) :: bs)).2 = ((e, ev) :: bs).map (fun _ => .quiet) ∧
          (s.run cfg ((e, ev) :: bs)).1.view = some v := by
      intro z hz hrest
      simp only [Dev.run, hz, List.map_cons]
      exact ⟨by rw [hrest.1], hrest.2⟩
    rcases hp with rfl | rfl | rfl
    · obtain ⟨x', h1, h2⟩ := hx.left hv hok
      refine go (z := s.zui.atStep l x') (by rw [h'.left, h1]; rfl) ?_
      exact ih hb' (h.at x') h2
    · rcases hx.right hv hk hok hbad with ⟨x', h1, h2⟩ | ⟨x', h1⟩
      · refine go (z := s.zui.atStep l x') (by rw [h'.right, h1]; rfl) ?_
        exact ih hb' (h.at x') h2
      · refine go (z := { s.zui.atError x' .lost with screen := .error }) (by rw [h'.right, h1]; rfl) ?_
        have := Dev.lost_stays (cfg := cfg) (s := { s with zui := { s.zui.atError x' .lost with screen := .error } })
          (l := ⟨x', .lost⟩) rfl rfl rfl bs fun e he => (hb' e he).1
        rw [this]
        exact ⟨rfl, h.view⟩
    · refine go (z := s.zui) (h'.nothing hx.action) ?_
      exact ih hb' h hx

/-- At the approval or at the rejection. -/
structure AtEnd (num : UInt8) (x : ZuiX) : Prop where
  step : x.step = .approve ∨ x.step = .reject
  inside : x.inside = false
  idx : x.itemIdx = num.toNat
  page : x.pageIdx = 0

/-- The steps of a review all items of which can be displayed. -/
def Somewhere (w : Viewer) (num : UInt8) (x : ZuiX) : Prop :=
  (x.step = .title ∧ x.inside = false) ∨ (∃ i < num.toNat, AtItem w num x i) ∨ AtEnd num x

theorem Somewhere.right {w : Viewer} {num : UInt8} (hv : FitsX w num) (hpos : 0 < num.toNat)
    (hok : ∀ i < num.toNat, ∃ f, w.item (UInt8.ofNat i) = .ok f) (hend : w.item num = .error .noData) {x : ZuiX}
    (h : Somewhere w num x) : ∃ x', x.right (some w) = .on x' ∧ Somewhere w num x' := by
  rcases h with ⟨hs, hi⟩ | ⟨i, hi, h⟩ | h
  · obtain ⟨f, hf⟩ := hok 0 hpos
    obtain ⟨x', h1, h2⟩ := title_right hv hs hi hf
    exact ⟨x', h1, .inr (.inl ⟨0, hpos, h2⟩)⟩
  · rcases Nat.lt_or_ge (i + 1) num.toNat with hlt | hge
    · obtain ⟨f, hf⟩ := hok (i + 1) hlt
      obtain ⟨x', h1, h2⟩ := h.next hv hi hf
      exact ⟨x', h1, .inr (.inl ⟨i + 1, hlt, h2⟩)⟩
    · obtain ⟨x', h1, h2, h3, h4, h5⟩ := h.last hv (by omega) hend
      exact ⟨x', h1, .inr (.inr ⟨.inl h2, h3, h4, h5⟩)⟩
  · rcases h with ⟨hs | hs, h2, h3, h4⟩
    · exact ⟨{ x with step := .reject }, by unfold ZuiX.right; rw [hs], .inr (.inr ⟨.inr rfl, h2, h3, h4⟩)⟩
    · exact ⟨x, by unfold ZuiX.right; rw [hs], .inr (.inr ⟨.inr hs, h2, h3, h4⟩)⟩

theorem Somewhere.left {w : Viewer} {num : UInt8} (hv : FitsX w num) (hpos : 0 < num.toNat)
    (hok : ∀ i < num.toNat, ∃ f, w.item (UInt8.ofNat i) = .ok f) {x : ZuiX} (h : Somewhere w num x) :
    ∃ x', x.left (some w) = .on x' ∧ Somewhere w num x' := by
  rcases h with ⟨hs, hi⟩ | ⟨i, hi, h⟩ | h
  · exact ⟨x, by unfold ZuiX.left; rw [hs], .inl ⟨hs, hi⟩⟩
  · cases i with
    | zero =>
      obtain ⟨x', h1, h2⟩ := h.home'
      exact ⟨x', h1, .inl h2⟩
    | succ i =>
      obtain ⟨f, hf⟩ := hok i (by omega)
      obtain ⟨x', h1, h2⟩ := h.back hv hf
      exact ⟨x', h1, .inr (.inl ⟨i, by omega, h2⟩)⟩
  · rcases h with ⟨hs | hs, h2, h3, h4⟩
    · have hd : x.pagingDecrease = { x with itemIdx := num.toNat - 1, pageIdx := 255 } := by
        unfold ZuiX.pagingDecrease
        rw [if_neg (by omega), if_pos (by omega), h3]
      obtain ⟨f, hf⟩ := hok (num.toNat - 1) (by omega)
      obtain ⟨x', h5, h6⟩ := AtItem.entered hv { x with itemIdx := num.toNat - 1, pageIdx := 255 } (.inr rfl) hf
      refine ⟨_, ?_, .inr (.inl ⟨num.toNat - 1, by omega, h6⟩)⟩
      unfold ZuiX.left
      rw [hs]
      show x.loopEnd (some w) = _
      unfold ZuiX.loopEnd
      rw [if_neg (by simp [h2]), hd, h5]
      rfl
    · exact ⟨{ x with step := .approve }, by unfold ZuiX.left; rw [hs], .inr (.inr ⟨.inl rfl, h2, h3, h4⟩)⟩

theorem OnLarge.on_right {cfg : Config} {env : Env} {w : Viewer} {v : View} {s : Dev} {l : LargeUi}
    (h : OnLarge env w v s l) {x : ZuiX} (hx : l.x.right (some w) = .on x) :
    s.step cfg env .right = ({ s with zui := s.zui.atStep l x }, .quiet) := by
  rw [h.right, hx]
  rfl

theorem OnLarge.reject {cfg : Config} {env : Env} {w : Viewer} {v : View} {s : Dev} {l : LargeUi}
    (h : OnLarge env w v s l) (hx : l.x.step = .reject) : Refused cfg env s [.both] := by
  refine Rejects.refused (v := v) ⟨h.running, rfl, h.screen, ?_, h.view⟩
  rw [Zui.chosen, h.large]
  simp only [ZuiX.action, hx]

/-- From an item of a review all items of which can be displayed, the right button leads to the rejection. -/
theorem OnLarge.items {cfg : Config} {env : Env} {w : Viewer} {v : View} {num : UInt8} (hv : FitsX w num)
    (hok : ∀ i < num.toNat, ∃ f, w.item (UInt8.ofNat i) = .ok f) (hend : w.item num = .error .noData) (k i : Nat)
    (hi : i + k + 1 = num.toNat) {s : Dev} {l : LargeUi} (h : OnLarge env w v s l) (hx : AtItem w num l.x i) :
    ∃ bs, Refused cfg env s bs := by
  induction k generalizing i s l with
  | zero =>
    obtain ⟨x1, h1, h2, -⟩ := hx.last hv hi hend
    have h3 : x1.right (some w) = .on { x1 with step := .reject } := by unfold ZuiX.right; rw [h2]
    exact ⟨[.right, .right, .both], .cons (.inr (.inl rfl)) (h.on_right h1) (.cons (.inr (.inl rfl))
      ((h.at x1).on_right h3) (((h.at x1).at { x1 with step := .reject }).reject rfl))⟩
  | succ k ih =>
    obtain ⟨f, hf⟩ := hok (i + 1) (by omega)
    obtain ⟨x', h1, h2⟩ := hx.next hv (by omega) hf
    obtain ⟨bs, hbs⟩ := ih (i + 1) (by omega) (h.at x') h2
    exact ⟨_, .cons (.inr (.inl rfl)) (h.on_right h1) hbs⟩

theorem OnLarge.ends {cfg : Config} {env : Env} {w : Viewer} {v : View} {num : UInt8} (hv : FitsX w num)
    (hpos : 0 < num.toNat) (hok : ∀ i < num.toNat, ∃ f, w.item (UInt8.ofNat i) = .ok f)
    (hend : w.item num = .error .noData) {s : Dev} {l : LargeUi} (h : OnLarge env w v s l) (hx : Somewhere w num l.x) :
    ∃ bs, Refused cfg env s bs := by
  rcases hx with ⟨hs, hi⟩ | ⟨i, hi, hx⟩ | hx
  · obtain ⟨f, hf⟩ := hok 0 hpos
    obtain ⟨x', h1, h2⟩ := title_right hv hs hi hf
    obtain ⟨bs, hbs⟩ := (h.at x').items hv hok hend (cfg := cfg) (num.toNat - 1) 0 (by omega) h2
    exact ⟨_, .cons (.inr (.inl rfl)) (h.on_right h1) hbs⟩
  · exact h.items hv hok hend (num.toNat - 1 - i) i (by omega) hx
  · rcases hx with ⟨hs | hs, -⟩
    · have h3 : l.x.right (some w) = .on { l.x with step := .reject } := by unfold ZuiX.right; rw [hs]
      exact ⟨[.right, .both], .cons (.inr (.inl rfl)) (h.on_right h3) ((h.at { l.x with step := .reject }).reject rfl)⟩
    · exact ⟨[.both], h.reject hs⟩

/-- Without a pending review, buttons do not bring one. -/
theorem Dev.run_no_view {cfg : Config} {bs : List (Env × Event)} (hb : ∀ e ∈ bs, e.2.Pressed) {s : Dev}
    (h : s.view = none) : (s.run cfg bs).1.view = none := by
  induction bs generalizing s with
  | nil => exact h
  | cons e bs ih =>
    refine ih (fun x hx => hb x (List.mem_cons_of_mem _ hx)) ?_
    rcases s.step_view cfg e.1 e.2 with h' | h' | ⟨v, hv⟩
    · exact h'.trans h
    · exact h'
    · obtain ⟨buf, rx, c, p, u, hr, -⟩ := hv.ex
      rcases hb e (List.mem_cons_self ..) with hx | hx | hx <;> rw [hx] at hr <;> cases hr.ev

/-- Whatever buttons are pressed, a review all items of which can be displayed stays at one of its steps, or ends. -/
theorem OnLarge.anywhere {cfg : Config} {w : Viewer} {v : View} {num : UInt8} (hv : FitsX w num)
    (hpos : 0 < num.toNat) (hok : ∀ i < num.toNat, ∃ f, w.item (UInt8.ofNat i) = .ok f)
    (hend : w.item num = .error .noData) {cr : Crypto} (bs : List (Env × Event))
    (hb : ∀ e ∈ bs, e.2.Pressed ∧ e.1.cr = cr) {env : Env} (hc : env.cr = cr) {s : Dev} {l : LargeUi}
    (h : OnLarge env w v s l) (hx : Somewhere w num l.x) :
    (s.run cfg bs).1.view = none ∨ ∃ l', OnLarge env w v (s.run cfg bs).1 l' ∧ Somewhere w num l'.x := by
  induction bs generalizing s l with
  | nil => exact .inr ⟨l, h, hx⟩
  | cons e bs ih =>
    obtain ⟨e, ev⟩ := e
    have hb' : ∀ e ∈ bs, e.2.Pressed ∧ e.1.cr = cr := fun x hx => hb x (List.mem_cons_of_mem _ hx)
    obtain ⟨hp, he⟩ := hb _ (List.mem_cons_self ..)
    simp only at hp he
    have h' := h.env (env' := e) (he.trans hc.symm)
    rcases hp with rfl | rfl | rfl
    · obtain ⟨x', h1, h2⟩ := hx.left hv hpos hok
      have hz : s.step cfg e .left = ({ s with zui := s.zui.atStep l x' }, .quiet) := by rw [h'.left, h1]; rfl
      simp only [Dev.run, hz]
      exact ih hb' (h.at x') h2
    · obtain ⟨x', h1, h2⟩ := hx.right hv hpos hok hend
      have hz : s.step cfg e .right = ({ s with zui := s.zui.atStep l x' }, .quiet) := by rw [h'.right, h1]; rfl
      simp only [Dev.run, hz]
      exact ih hb' (h.at x') h2
    · by_cases ha : l.x.action = .nothing
      · have hz := h'.nothing (cfg := cfg) ha
        simp only [Dev.run, hz]
        exact ih hb' h hx
      · left
        refine Dev.run_no_view (s := (s.step cfg e .both).1) (fun x hx => (hb' x hx).1) ?_
        obtain ⟨k, l1, l2, hscr⟩ := h.screen
        have hj : ∀ r : Dev, r.zui.display = s.zui.display → r.zui.jumps = false := by
          intro r hr
          obtain ⟨l', hl'⟩ := Zui.display_large.mp (hr.trans (Zui.display_large.mpr ⟨l, h.large⟩))
          simp [Zui.jumps, hl']
        simp only [Dev.step, h.running, if_true, hscr, Dev.pressBoth, Zui.chosen, h.large]
        cases hact : l.x.action with
        | nothing => exact absurd hact ha
        | approve =>
          simp only [hj _ (s.approve_display e), Bool.false_eq_true, and_false, if_false]
          exact s.approve_view e
        | reject =>
          simp only [hj _ s.reject_display, Bool.false_eq_true, and_false, if_false]
          exact s.reject_view

/-- The state in which a command leaves the larger display. -/
theorem Moment.Opens.large {cfg : Config} {m : Moment} {v : View} (ho : m.Opens cfg v) (hd : m.st.zui.display = .large)
    (hon : (m.next cfg).OnScreen) {env : Env} {w : Viewer} (hw : w = v.viewer env.cr (m.next cfg).upl.buf) :
    ∃ l, OnLarge env w v (m.next cfg) l ∧ l.x.step = .title ∧ l.x.inside = false := by
  obtain ⟨l, hl⟩ := Zui.display_large.mp hd
  have hshow := ho.shown hon
  rw [Zui.openReview, hl] at hshow
  simp only [Upd.shown.injEq] at hshow
  refine ⟨{ l with x := l.x.showReview }, ⟨hon.1, ho.view, ?_, by rw [← hshow]; rfl, hon.2⟩, rfl, rfl⟩
  show Option.map _ (m.next cfg).view = _
  rw [ho.view, hw]
  rfl

/-- C79 on the Nano X and S+, for a review all items of which can be displayed: from when a command opened it, whatever
buttons are pressed, as long as the review is pending it can be ended with the buttons, without approving it.

Missing for the full claim: reviews with an item that cannot be displayed (`C79_large_stuck`). -/
theorem C79_large_partial (cfg : Config) (m : Moment) (v : View) (hd : m.st.zui.display = .large) (hs : m.env.cr.Sized)
    (ho : m.Opens cfg v) (hon : (m.next cfg).OnScreen) (env : Env) (hc : env.cr = m.env.cr) (w : Viewer)
    (hw : w = v.viewer env.cr (m.next cfg).upl.buf) (num : UInt8) (hn : w.numItems = .ok num) (hpos : 0 < num.toNat)
    (hi : ∀ i < num.toNat, ∃ f, w.item (UInt8.ofNat i) = .ok f) (hend : w.item num = .error .noData)
    (bs : List (Env × Event)) (hb : ∀ e ∈ bs, e.2.Pressed ∧ e.1.cr = env.cr)
    (hv : ((m.next cfg).run cfg bs).1.view ≠ none) : ∃ bs', Refused cfg env ((m.next cfg).run cfg bs).1 bs' := by
  have hfit : FitsX w num := by
    rw [hw] at hn ⊢
    exact C73_reviews_fit cfg m v hs ho env.cr (hc ▸ hs) _ num hn
  obtain ⟨l, h1, h2⟩ := ho.large hd hon hw
  rcases h1.anywhere (cfg := cfg) hfit hpos hi hend bs hb rfl (.inl h2) with h | ⟨l', h3, h4⟩
  · exact absurd h hv
  · exact h3.ends hfit hpos hi hend h4

/-- C79 on the Nano X and S+: if already the first item cannot be displayed, the error that follows can be acknowledged
with both buttons, which ends the review. -/
theorem C79_large_first (cfg : Config) (m : Moment) (v : View) (hd : m.st.zui.display = .large) (hs : m.env.cr.Sized)
    (ho : m.Opens cfg v) (hon : (m.next cfg).OnScreen) (env : Env) (hc : env.cr = m.env.cr) (w : Viewer)
    (hw : w = v.viewer env.cr (m.next cfg).upl.buf) (num : UInt8) (hn : w.numItems = .ok num)
    (hbad : w.item 0 = .error .unknown) : Refused cfg env (m.next cfg) [.right, .both] := by
  have hfit : FitsX w num := by
    rw [hw] at hn ⊢
    exact C73_reviews_fit cfg m v hs ho env.cr (hc ▸ hs) _ num hn
  obtain ⟨l, h1, h2, h3⟩ := ho.large hd hon hw
  have hu := reviewUpdateX_error hfit l.x.pagingInit (e := .unknown) hbad
  have hr : ∃ x, l.x.right (some w) = .error x := by
    unfold ZuiX.right
    rw [h2]
    show ∃ x, l.x.loopStart (some w) = _
    unfold ZuiX.loopStart
    rw [if_neg (by simp [h3]), hu]
    exact ⟨_, rfl⟩
  obtain ⟨x, hr⟩ := hr
  have hstep : (m.next cfg).step cfg env .right =
      ({ m.next cfg with zui := { (m.next cfg).zui.atError x .ok with screen := .error } }, .quiet) := by
    rw [h1.right, hr]
    rfl
  refine .cons (.inr (.inl rfl)) hstep (refused_error (v := v) (.inr (.inr rfl)) h1.running h1.view ?_)
  simp [Dev.step, h1.running, Dev.onError, Zui.closesBoth, Zui.atError]

/-- **C79, negated** on the Nano X and S+: if the first item of a review can be displayed and a later one cannot, no
buttons ever end the review. Whatever is pressed, the computer gets no answer and the review stays pending. -/
theorem C79_large_stuck (cfg : Config) (m : Moment) (v : View) (hd : m.st.zui.display = .large) (hs : m.env.cr.Sized)
    (ho : m.Opens cfg v) (hon : (m.next cfg).OnScreen) (env : Env) (hc : env.cr = m.env.cr) (w : Viewer)
    (hw : w = v.viewer env.cr (m.next cfg).upl.buf) (num : UInt8) (hn : w.numItems = .ok num) (k : Nat)
    (hk : k + 1 < num.toNat) (hok : ∀ i ≤ k, ∃ f, w.item (UInt8.ofNat i) = .ok f)
    (hbad : w.item (UInt8.ofNat (k + 1)) = .error .unknown) (bs : List (Env × Event))
    (hb : ∀ e ∈ bs, e.2.Pressed ∧ e.1.cr = env.cr) :
    ((m.next cfg).run cfg bs).2 = bs.map (fun _ => .quiet) ∧ ((m.next cfg).run cfg bs).1.view = some v := by
  have hfit : FitsX w num := by
    rw [hw] at hn ⊢
    exact C73_reviews_fit cfg m v hs ho env.cr (hc ▸ hs) _ num hn
  obtain ⟨l, h1, h2⟩ := ho.large hd hon hw
  exact h1.stuck hfit hk hok hbad bs hb rfl (.inl h2)

/-! ### Concrete cases -/

namespace Demo

/-- The key, then the transfer of `2 ^ 28` millionths of a tez. -/
def largeTransferRequest : List (Env × Event) := ok [apdu 0x04 0 0 keyPath, apdu 0x04 0x81 0 largeTransfer]

/-- A new device with the two-line display. -/
def freshSmall : Dev := Dev.factory ⟨.small, List.replicate uploadCapacity 0⟩

set_option maxRecDepth 100000 in
/-- The hypotheses of `C79_small`, at the worst review: the transfer whose amount cannot be displayed is pending in the
running app. Seven presses of the right button lead to the error screen, and the eighth ends the review. -/
example :
    let s := (freshSmall.run walletApp largeTransferRequest).1
    s.running = true ∧ s.view.isSome = true ∧
    ((s.run walletApp (ok (List.replicate 8 .right))).2.map Output.reply) =
      List.replicate 7 none ++ [some [0x69, 0x84]] := by
  decide +kernel

set_option maxRecDepth 100000 in
/-- A review ended from its middle after the computer has replaced the message in memory: two presses into the review
of a delegation, a new upload begins; the review goes on with the new memory and ends. -/
example :
    let s := (freshSmall.run walletApp (ok ([apdu 0x04 0 0 keyPath, apdu 0x04 0x81 0 delegation] ++
      List.replicate 2 .right ++ [apdu 0x04 0 0 keyPath]))).1
    s.running = true ∧ s.view.isSome = true ∧
    ((s.run walletApp (ok (List.replicate 10 .right ++ [.both]))).2.map Output.reply) =
      List.replicate 10 none ++ [some [0x69, 0x86]] := by
  decide +kernel

set_option maxRecDepth 100000 in
/-- The hypotheses of `C79_large_partial`: an authorization on the larger display is pending; after going to the approval
and back, it is rejected. -/
example :
    let s := (freshLarge.run bakingApp (ok ([apdu 0xA1 1 0 keyPath] ++ List.replicate 3 .right ++
      List.replicate 2 .left))).1
    s.running = true ∧ s.view.isSome = true ∧
    ((s.run bakingApp (ok (List.replicate 3 .right ++ [.both]))).2.map Output.reply) =
      List.replicate 3 none ++ [some [0x69, 0x86]] := by
  decide +kernel

end Demo

set_option maxRecDepth 100000 in
/-- **C79, negated**, for an operation: on the larger display, the review of a transfer of `2 ^ 28` millionths of a tez
cannot be ended. Whatever buttons are pressed, the computer gets no answer. -/
theorem C79_transfer_stuck : ∃ o : Operation, o.Valid ∧ Demo.largeTransfer = 0x03 :: (Demo.branch ++ o.encode) ∧
    let s := (Demo.freshLarge.run Demo.walletApp Demo.largeTransferRequest).1
    s.running = true ∧ s.view ≠ none ∧
    ∀ bs : List (Env × Event), (∀ e ∈ bs, e.2.Pressed ∧ e.1.cr = Demo.crypto) →
      (s.run Demo.walletApp bs).2 = bs.map (fun _ => .quiet) := by
  refine ⟨Demo.transfer (2 ^ 28), Demo.transfer_valid _, by rw [Demo.transfer_encode]; rfl, by decide +kernel, ?_⟩
  generalize hst : (Demo.freshLarge.run Demo.walletApp (Demo.ok [Demo.apdu 0x04 0 0 Demo.keyPath])).1 = st
  have h0 : st.view = none ∧ st.zui.display = .large := by rw [← hst]; decide +kernel
  let m : Moment := ⟨st, Demo.fine, Demo.apdu 0x04 0x81 0 Demo.largeTransfer,
    (st.step Demo.walletApp Demo.fine (Demo.apdu 0x04 0x81 0 Demo.largeTransfer)).2⟩
  have hm : (Demo.freshLarge.run Demo.walletApp Demo.largeTransferRequest).1 = m.next Demo.walletApp := by
    rw [show m.next Demo.walletApp =
      (st.step Demo.walletApp Demo.fine (Demo.apdu 0x04 0x81 0 Demo.largeTransfer)).1 from rfl, ← hst]
    rfl
  have hd : (let s := (Demo.freshLarge.run Demo.walletApp Demo.largeTransferRequest).1
      s.running = true ∧ Demo.isReview s.zui.screen = true ∧ s.view.any (fun v =>
        let w := v.viewer Demo.crypto s.upl.buf
        (match w.numItems with | .ok n => n == 10 | _ => false) &&
        (List.range 4).all (fun i => match w.item (UInt8.ofNat i) with | .ok _ => true | _ => false) &&
        (match w.item 4 with | .error .unknown => true | _ => false)) = true) := by decide +kernel
  obtain ⟨h1, h2, h3⟩ := hd
  rw [hm] at h1 h2 h3 ⊢
  cases hv : (m.next Demo.walletApp).view with
  | none => rw [hv] at h3; cases h3
  | some v =>
    rw [hv] at h3
    simp only [Option.any_some, Bool.and_eq_true, List.all_eq_true, List.mem_range] at h3
    obtain ⟨⟨hnum, hok⟩, hbad⟩ := h3
    have ho : m.Opens Demo.walletApp v := by
      rcases st.step_view Demo.walletApp Demo.fine (Demo.apdu 0x04 0x81 0 Demo.largeTransfer) with h | h | ⟨x, hx⟩
      · exact absurd (hv.symm.trans (h.trans h0.1)) (by simp)
      · exact absurd (hv.symm.trans h) (by simp)
      · obtain rfl : x = v := Option.some.inj (hx.view.symm.trans hv)
        exact hx
    have hon : (m.next Demo.walletApp).OnScreen := by
      refine ⟨h1, ?_⟩
      cases hs : (m.next Demo.walletApp).zui.screen with
      | review k l1 l2 => exact ⟨k, l1, l2, rfl⟩
      | idle => rw [hs] at h2; cases h2
      | error => rw [hs] at h2; cases h2
    have hn : (v.viewer Demo.fine.cr (m.next Demo.walletApp).upl.buf).numItems = .ok 10 := by
      show (v.viewer Demo.crypto _).numItems = _
      split at hnum
      · rename_i n hx
        rw [hx, eq_of_beq hnum]
      · cases hnum
    refine ⟨by simp, fun bs hb => (C79_large_stuck Demo.walletApp m v h0.2 Demo.crypto_works.sized ho hon Demo.fine rfl
      _ rfl 10 hn 3 (by decide) (fun i hi => ?_) ?_ bs hb).1⟩
    · have := hok i (by omega)
      split at this
      · rename_i f hf
        exact ⟨f, hf⟩
      · cases this
    · show (v.viewer Demo.crypto _).item 4 = _
      split at hbad
      · rename_i hx
        exact hx
      · cases hbad

end Tezos
