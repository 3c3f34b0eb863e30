import Verif.Props.Walk
import Verif.Props.ReviewX
/-
The reviews of the larger display on the whole device: that a device keeps its display, and that a review which can be
displayed is walked through, approved and rejected by the buttons.
-/
namespace Tezos
open Spec (Operation)

/-! ### A device keeps its display -/

theorem Zui.display_of_large {z z' : Zui} (h : z'.large.isSome = z.large.isSome) : z'.display = z.display := by
  unfold Zui.display
  rw [h]

theorem Zui.display_large {z : Zui} : z.display = .large ↔ ∃ l, z.large = some l := by
  unfold Zui.display
  cases z.large <;> simp

theorem Zui.init_display (d : Display) : (Zui.init d).display = d := by cases d <;> rfl

/-- If the update goes on, it is on a display of this kind. -/
def Upd.On (d : Display) : Upd → Prop
  | .shown z | .failed z | .rejected z => z.display = d
  | _ => True

theorem Zui.pagingIncrease_display (z : Zui) : z.pagingIncrease.display = z.display :=
  Zui.display_of_large (by rw [Zui.pagingIncrease_large])

theorem Zui.pagingDecrease_display (z : Zui) : z.pagingDecrease.display = z.display :=
  Zui.display_of_large (by rw [Zui.pagingDecrease_large])

theorem updateLoop_on (v : Viewer) (f : Nat) {z : Zui} {d : Display} (h : z.display = d) : (updateLoop v f z).On d := by
  induction f generalizing z with
  | zero => trivial
  | succ f ih =>
    unfold updateLoop
    split
    · trivial
    · exact h
    · exact h
    · rename_i n _
      dsimp only
      have hl : (if n ≠ 0 ∧ z.pageIdx > n then { z with pageCount := n, pageIdx := n - 1 }
          else { z with pageCount := n } : Zui).display = d := by
        split <;> exact h
      revert hl
      generalize (if n ≠ 0 ∧ z.pageIdx > n then { z with pageCount := n, pageIdx := n - 1 }
          else { z with pageCount := n } : Zui) = z1
      intro hl
      split
      · trivial
      · exact hl
      · exact hl
      · split
        · exact ih ((Zui.pagingIncrease_display _).trans hl)
        · exact hl

theorem reviewUpdate_on (v : Option Viewer) {z : Zui} {d : Display} (h : z.display = d) : (reviewUpdate v z).On d := by
  unfold reviewUpdate
  split
  · exact h
  · split
    · trivial
    · exact h
    · dsimp only
      split
      · exact h
      split
      · exact h
      · exact updateLoop_on _ _ h

theorem Zui.ofResX_on {z : Zui} {l : LargeUi} (e : XError) (r : ResX) (h : z.large = some l) :
    (z.ofResX l e r).On z.display := by
  have hd : z.display = .large := Zui.display_large.mpr ⟨l, h⟩
  rw [hd]
  cases r <;> trivial

theorem Zui.openReview_on (v : Viewer) (z : Zui) : (z.openReview v).On z.display := by
  unfold Zui.openReview
  split
  · exact reviewUpdate_on _ rfl
  · rename_i l h
    exact Zui.ofResX_on (z := z) .ok (.on l.x.showReview) h

theorem Zui.goLeft_on (v : Option Viewer) (z : Zui) : (z.goLeft v).On z.display := by
  unfold Zui.goLeft
  split
  · exact reviewUpdate_on _ z.pagingDecrease_display
  · rename_i l h
    exact Zui.ofResX_on _ _ h

theorem Zui.goRight_on (v : Option Viewer) (z : Zui) : (z.goRight v).On z.display := by
  unfold Zui.goRight
  split
  · exact reviewUpdate_on _ z.pagingIncrease_display
  · rename_i l h
    exact Zui.ofResX_on _ _ h

theorem View.reject_zui (v : View) (s : Dev) : (v.reject s).zui = s.zui := by cases v <;> rfl

theorem Dev.reject_display (s : Dev) : s.reject.1.zui.display = s.zui.display := by
  unfold Dev.reject
  dsimp only
  split
  · rfl
  · dsimp only
    rw [View.reject_zui]
    rfl

theorem Dev.redraw_display {u : Upd} {s : Dev} (h : u.On s.zui.display) :
    (s.redraw u).1.zui.display = s.zui.display := by
  cases u with
  | shown z => exact h
  | failed z => exact h
  | rejected z =>
    have := Dev.reject_display { s with zui := z }
    exact Eq.trans this h
  | panic => rfl
  | hang => rfl

theorem Dev.show_display (env : Env) (v : View) (s : Dev) : (s.show env v).st.zui.display = s.zui.display := by
  have h := Zui.openReview_on (v.viewer env.cr s.upl.buf) s.zui
  unfold Dev.show
  dsimp only
  split
  · rename_i hz; rw [hz] at h; exact h
  · rename_i hz; rw [hz] at h; exact h
  · rename_i hz; rw [hz] at h; exact h
  · rfl
  · rfl

theorem Dev.afterWrite_zui {s : Dev} {z : Zui} (hs : s.zui = z) (r : WriteRes) (e : ApduError) {k : Dev → Res}
    (hk : ∀ s' : Dev, s'.zui = z → (k s').st.zui = z) : (s.afterWrite r e k).st.zui = z := by
  cases r with
  | ok => exact hk s hs
  | _ => exact hs

theorem View.accept_zui (env : Env) (v : View) (s : Dev) : (v.accept env s).st.zui = s.zui := by
  cases v with
  | sign h d p m =>
    simp only [View.accept]
    split
    · rfl
    · split <;> rfl
  | bakingSign h d b o m =>
    simp only [View.accept]
    rcases s.bakingSign_cases env h d m with ⟨h, _⟩ | ⟨k, sig, _, _, h⟩ <;> rw [h]
  | addr a k w =>
    simp only [View.accept]
    split
    · split <;> rfl
    · rfl
  | authorize k a =>
    simp only [View.accept]
    split
    · rfl
    · exact Dev.afterWrite_zui rfl _ _ fun s' h => h
  | deauthorize a => exact Dev.afterWrite_zui rfl _ _ fun s' h => h
  | query k a w => rfl
  | setup k a m t ch =>
    simp only [View.accept]
    split
    · rfl
    · refine Dev.afterWrite_zui (s := (s.storeKey env k).1) rfl _ _ fun s1 h1 => ?_
      refine Dev.afterWrite_zui (s := (s1.writeMain env _).1) h1 _ _ fun s2 h2 => ?_
      refine Dev.afterWrite_zui (s := (s2.writeTest env _).1) h2 _ _ fun s3 h3 => ?_
      exact Dev.afterWrite_zui (s := (s3.writeChain env _).1) h3 _ _ fun s4 h4 => h4

theorem Dev.approve_display (env : Env) (s : Dev) : (s.approve env).1.zui.display = s.zui.display := by
  unfold Dev.approve
  dsimp only
  split
  · rfl
  · dsimp only
    rw [(Res.deliver_kept _).2, View.accept_zui]
    rfl

theorem Dev.onError_display (c : Bool) (f : XError → XError) (s : Dev) :
    (s.onError c f).1.zui.display = s.zui.display := by
  unfold Dev.onError
  split
  · unfold Dev.acceptError
    dsimp only
    split <;> rfl
  · refine Zui.display_of_large ?_
    simp only [Zui.moveError, Option.isSome_map]

theorem Dev.pressBoth_display (env : Env) (s : Dev) : (s.pressBoth env).1.zui.display = s.zui.display := by
  have key : ∀ r : Dev × Output, r.1.zui.display = s.zui.display →
      (if r.1.running ∧ r.1.zui.jumps then
        ((r.1.redraw (r.1.zui.expertJump (r.1.viewer env))).1,
          (⟨r.2.reply <|> (r.1.redraw (r.1.zui.expertJump (r.1.viewer env))).2.reply, r.2.sig,
            r.2.fault <|> (r.1.redraw (r.1.zui.expertJump (r.1.viewer env))).2.fault⟩ : Output))
        else r).1.zui.display = s.zui.display := by
    intro r hr
    split
    · have hj : (r.1.zui.expertJump (r.1.viewer env)).On r.1.zui.display := reviewUpdate_on _ rfl
      exact (Dev.redraw_display hj).trans hr
    · exact hr
  unfold Dev.pressBoth
  dsimp only
  split
  · exact key _ (s.approve_display env)
  · exact key _ s.reject_display
  · exact key _ rfl

/-- The kind of the display never changes. -/
theorem Dev.step_display (cfg : Config) (env : Env) (ev : Event) (s : Dev) :
    (s.step cfg env ev).1.zui.display = s.zui.display := by
  cases ev with
  | relaunch => exact Zui.init_display _
  | apdu buf rx =>
    rcases s.apdu_cases cfg env buf rx with ⟨h, _⟩ | ⟨c, hrec, h⟩
    · rw [h]
    rw [h, (Res.deliver_kept _).2]
    cases s.exec_cases cfg env c (buf.getD 2 0) (buf.getD 3 0) (apduPayload buf) with
    | still p u hs _ => rw [hs.1]; rfl
    | opened v p u u' ho hout hsig hst hupl =>
      rw [hst]
      exact Dev.show_display env v _
    | reset p hc hp hl hr => rw [hr, (Dev.resetHwm_ram _ _ _).2]
    | auto h u u' q2 first data ref k digest hc hu hcv hp hk hd hm hout hsig hst =>
      rw [hst]
      rcases (s.withUpload s.path u).autoSign_cases env h digest data (specDecide data) (fun _ _ => specDecide_error) with
        ⟨h, _⟩ | ⟨b, w, _, _, ⟨h, _⟩ | ⟨_, k, sig, _, _, h⟩⟩ <;> rw [h] <;> rfl
  | left =>
    simp only [Dev.step]
    split
    · split
      · exact Dev.redraw_display (Zui.goLeft_on _ _)
      · exact s.onError_display _ _
      · rfl
    · rfl
  | right =>
    simp only [Dev.step]
    split
    · split
      · exact Dev.redraw_display (Zui.goRight_on _ _)
      · exact s.onError_display _ _
      · rfl
    · rfl
  | both =>
    simp only [Dev.step]
    split
    · split
      · exact s.pressBoth_display env
      · exact s.onError_display _ _
      · rfl
    · rfl
  | expert =>
    simp only [Dev.step]
    split <;> rfl

/-- In a history from a new device, every state has the display of that device. -/
theorem Dev.trace_display {cfg : Config} {es : List (Env × Event)} {s : Dev} {m : Moment} (hm : m ∈ s.trace cfg es) :
    m.st.zui.display = s.zui.display := by
  induction es generalizing s with
  | nil => cases hm
  | cons e es ih =>
    simp only [Dev.trace, List.mem_cons] at hm
    rcases hm with rfl | hm
    · rfl
    · exact (ih hm).trans (s.step_display cfg e.1 e.2)

/-! ### Reading a review -/

/-- Pressing the right button while the steps of a review are on the larger display: only the display changes, and
nothing is answered. -/
theorem Dev.run_rightsX {cfg : Config} {env : Env} {w : Viewer} (k : Nat) {s : Dev} (hr : s.running = true)
    (hs : ∃ k l1 l2, s.zui.screen = .review k l1 l2) {l : LargeUi} (hd : s.zui.large = some l)
    (hw : s.viewer env = some w) {x : ZuiX} {log log' : List SeenX}
    (h : uiRunX w l.x log (List.replicate k .right) = some (x, log')) :
    ∃ z, s.run cfg (List.replicate k (env, .right)) = ({ s with zui := z }, List.replicate k .quiet) ∧
    (∃ l', z.large = some l' ∧ l'.x = x) ∧
    log'.map SeenX.screen = log.map SeenX.screen ++
      ((s.trace cfg (List.replicate k (env, .right))).map fun m => (m.next cfg).zui.screen) := by
  induction k generalizing s log l with
  | zero =>
    simp only [List.replicate_zero, uiRunX, Option.some.injEq, Prod.mk.injEq] at h
    obtain ⟨rfl, rfl⟩ := h
    exact ⟨s.zui, rfl, ⟨l, hd, rfl⟩, by simp [Dev.trace]⟩
  | succ k ih =>
    rw [List.replicate_succ] at h
    simp only [uiRunX] at h
    split at h
    · rename_i x' hx
      have hstep : s.step cfg env .right = ({ s with zui := s.zui.atStep l x' }, .quiet) := by
        obtain ⟨a, l1, l2, hs⟩ := hs
        have hg : s.zui.goRight (some w) = .shown (s.zui.atStep l x') := by rw [Zui.goRight, hd]; simp only [hx]; rfl
        simp only [Dev.step, hr, hs, hw, hg, Dev.redraw, if_true]
      obtain ⟨z, h1, h2, h3⟩ := ih (s := { s with zui := s.zui.atStep l x' }) hr x'.screen_review rfl hw h
      refine ⟨z, ?_, h2, ?_⟩
      · rw [List.replicate_succ, List.replicate_succ]
        simp only [Dev.run, hstep]
        rw [h1]
      · rw [List.replicate_succ]
        simp only [Dev.trace, Moment.next, hstep, List.map_cons]
        rw [h3]
        simp only [Moment.next, List.map_append, List.append_assoc, List.cons_append, List.nil_append, List.map_cons,
          List.map_nil, ZuiX.seen_screen]
        rfl
    · cases h

/-- C75: a review that a command brings to the larger display, and all items of which can be displayed, can be read,
approved and rejected. The right button shows the title, the items one after the other and the approval; nothing but the
display changes meanwhile and nothing is answered. Then both buttons approve, and after another press of the right button
they reject. -/
theorem C75_device (cfg : Config) (m : Moment) (v : View) (hd : m.st.zui.display = .large) (hs : m.env.cr.Sized)
    (ho : m.Opens cfg v) (hon : (m.next cfg).OnScreen) (env : Env) (hc : env.cr = m.env.cr) (w : Viewer)
    (hw : w = v.viewer env.cr (m.next cfg).upl.buf) (num : UInt8) (hn : w.numItems = .ok num) (hpos : 0 < num.toNat)
    (hi : ∀ i < num.toNat, ∃ f, w.item (UInt8.ofNat i) = .ok f) (hend : w.item num = .error .noData) :
    ∃ z z',
      (m.next cfg).run cfg (List.replicate (num.toNat + 1) (env, .right)) =
        ({ m.next cfg with zui := z }, List.replicate (num.toNat + 1) .quiet) ∧
      ((m.next cfg).trace cfg (List.replicate (num.toNat + 1) (env, .right))).map (fun x => x.st.zui.screen) =
        SeenX.please.screen :: (shownItems w num.toNat).map SeenX.screen ∧
      Approves { m.next cfg with zui := z } .both v ∧
      (m.next cfg).run cfg (List.replicate (num.toNat + 2) (env, .right)) =
        ({ m.next cfg with zui := z' }, List.replicate (num.toNat + 2) .quiet) ∧
      Rejects { m.next cfg with zui := z' } .both v := by
  have hfit : FitsX w num := by
    rw [hw] at hn ⊢
    exact C73_reviews_fit cfg m v hs ho env.cr (hc ▸ hs) _ num hn
  have hview : (m.next cfg).viewer env = some w := by
    show Option.map _ (m.next cfg).view = _
    rw [ho.view, hw]
    rfl
  obtain ⟨l, hl⟩ := Zui.display_large.mp hd
  have hshow := ho.shown hon
  rw [Zui.openReview, hl] at hshow
  simp only [Upd.shown.injEq] at hshow
  have hl' : (m.next cfg).zui.large = some { l with x := l.x.showReview } := by rw [← hshow]; rfl
  have hscr : (m.next cfg).zui.screen = SeenX.please.screen := by rw [← hshow]; rfl
  obtain ⟨x, h1, h2, ⟨x', h3, h4⟩, -⟩ := C75_walk hfit hpos hi hend l.x
  obtain ⟨z, ha, ⟨b, hb, rfl⟩, hlog⟩ := Dev.run_rightsX (cfg := cfg) _ hon.1 hon.2 hl' hview h1
  obtain ⟨z', ha', ⟨b', hb', rfl⟩, hlog'⟩ := Dev.run_rightsX (cfg := cfg) _ hon.1 hon.2 hl' hview h3
  have ht := Dev.trace_screens cfg (m.next cfg) (List.replicate (num.toNat + 1) (env, .right))
  have ht' := Dev.trace_screens cfg (m.next cfg) (List.replicate (num.toNat + 2) (env, .right))
  rw [hscr] at ht ht'
  simp only [List.map_cons, List.map_append, List.map_nil] at hlog hlog'
  rw [← hlog, ha] at ht
  rw [← hlog', ha'] at ht'
  obtain ⟨e1, e2⟩ := List.append_inj' ht rfl
  have ht' : _ ++ [z'.screen] = (SeenX.please.screen :: (shownItems w num.toNat).map SeenX.screen ++ [approveScreen]) ++
    [rejectScreen] := ht'.trans (by simp [SeenX.screen])
  obtain ⟨-, e2'⟩ := List.append_inj' ht' rfl
  refine ⟨z, z', ha, e1, ⟨hon.1, rfl, ⟨_, _, _, (List.cons.inj e2).1⟩, ?_, ho.view⟩, ha',
    ⟨hon.1, rfl, ⟨_, _, _, (List.cons.inj e2').1⟩, ?_, ho.view⟩⟩
  · show z.chosen = _
    rw [Zui.chosen, hb]
    exact h2
  · show z'.chosen = _
    rw [Zui.chosen, hb']
    exact h4

/-- C75: the reviews that ask for something other than a signature have nothing after their last item. -/
theorem C75_others_end (v : View) (hv : v.NoSignature) (cr : Crypto) (mem : SwapBuf) (num : UInt8)
    (hn : (v.viewer cr mem).numItems = .ok num) : (v.viewer cr mem).item num = .error .noData := by
  cases v with
  | sign => exact hv.elim
  | bakingSign => exact hv.elim
  | _ =>
    simp only [View.viewer, Except.ok.injEq] at hn
    subst hn
    rfl

/-! ### Losing the flow -/

/-- One or both buttons are pressed. -/
def Event.Pressed (ev : Event) : Prop := ev = .left ∨ ev = .right ∨ ev = .both

/-- Once the flow is lost, no button does or answers anything. -/
theorem Dev.lost_stays {cfg : Config} {s : Dev} {l : LargeUi} (hs : s.zui.screen = .error) (hl : s.zui.large = some l)
    (he : l.err = .lost) (es : List (Env × Event)) (hb : ∀ e ∈ es, e.2.Pressed) :
    s.run cfg es = (s, es.map fun _ => .quiet) := by
  induction es with
  | nil => rfl
  | cons e es ih =>
    have hstep : s.step cfg e.1 e.2 = (s, .quiet) := by
      have hz : ∀ f : XError → XError, f .lost = .lost → s.zui.moveError f = s.zui := by
        intro f hf
        obtain ⟨x, err⟩ := l
        simp only at he
        subst he
        simp only [Zui.moveError, hl, Option.map_some, hf]
        cases hzui : s.zui
        rw [hzui] at hl
        simp only at hl
        rw [hl]
      have hm : ∀ f : XError → XError, f .lost = .lost → ({ s with zui := s.zui.moveError f } : Dev) = s := by
        intro f hf
        rw [hz f hf]
      rcases hb e (List.mem_cons_self ..) with hv | hv | hv <;> rw [hv]
      · simp [Dev.step, hs, Dev.onError, hm XError.prev rfl]
      · simp [Dev.step, hs, Dev.onError, Zui.closesRight, hl, hm XError.next rfl]
      · simp [Dev.step, hs, Dev.onError, Zui.closesBoth, hl, he, hm id rfl]
    obtain ⟨env, ev⟩ := e
    simp only [Dev.run, hstep, List.map_cons]
    rw [ih fun e he => hb e (List.mem_cons_of_mem _ he)]

/-! ### Concrete cases -/

namespace Demo

/-- A new device with the larger display. -/
def freshLarge : Dev := Dev.factory ⟨.large, []⟩

set_option maxRecDepth 100000 in
/-- The hypotheses of `C75_device`: an authorization on the larger display. The command brings it to the display, and
after three presses both buttons approve it. -/
example :
    let s := (freshLarge.run bakingApp (ok [apdu 0xA1 1 0 keyPath])).1
    s.running = true ∧ s.zui.display = .large ∧ isReview s.zui.screen = true ∧
    (approved (s.run bakingApp (ok (List.replicate 3 .right))).1 .both).isSome = true := by
  decide +kernel

set_option maxRecDepth 100000 in
/-- A delegation signed on the larger display: nine presses of the right button, then both. -/
example :
    ((freshLarge.run walletApp (ok ([apdu 0x04 0 0 keyPath, apdu 0x04 0x81 0 delegation] ++ List.replicate 9 .right ++
      [.both]))).2.map fun o => (o.reply.isSome, o.sig.isSome)) =
    (true, false) :: List.replicate 10 (false, false) ++ [(true, true)] := by
  decide +kernel

end Demo

set_option maxRecDepth 100000 in
/-- **C75, negated** on the device, without its hypothesis on numbers: the review of a transfer of `2 ^ 28` millionths of
a tez on the larger display shows the branch, the type, the source and the destination; the next press of the right
button loses the flow. Whatever buttons are pressed after that, nothing changes and the computer gets no answer. -/
theorem C75_large_amount_device : ∃ o : Operation, o.Valid ∧
    Demo.largeTransfer = 0x03 :: (Demo.branch ++ o.encode) ∧
    let es := Demo.ok ([Demo.apdu 0x04 0 0 Demo.keyPath, Demo.apdu 0x04 0x81 0 Demo.largeTransfer] ++
      List.replicate 5 Event.right)
    ((Demo.freshLarge.run Demo.walletApp es).2.map fun o => o.reply) = some [0x90, 0x00] :: List.replicate 6 none ∧
    ∀ bs : List (Env × Event), (∀ e ∈ bs, e.2.Pressed) →
      (Demo.freshLarge.run Demo.walletApp es).1.run Demo.walletApp bs =
        ((Demo.freshLarge.run Demo.walletApp es).1, bs.map fun _ => .quiet) := by
  refine ⟨Demo.transfer (2 ^ 28), Demo.transfer_valid _, by rw [Demo.transfer_encode]; rfl, by decide +kernel, ?_⟩
  have h : (let z := (Demo.freshLarge.run Demo.walletApp (Demo.ok ([Demo.apdu 0x04 0 0 Demo.keyPath,
      Demo.apdu 0x04 0x81 0 Demo.largeTransfer] ++ List.replicate 5 Event.right))).1.zui
      z.screen = .error ∧ z.large.map LargeUi.err = some .lost) := by decide +kernel
  obtain ⟨h1, h2⟩ := h
  obtain ⟨l, hl, he⟩ := Option.map_eq_some_iff.mp h2
  exact fun bs hb => Dev.lost_stays h1 hl he bs hb

end Tezos
