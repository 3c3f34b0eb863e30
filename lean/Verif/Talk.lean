import Verif.Client
import Verif.Props.Queries
import Verif.Props.Replies
import Verif.Props.Approvals
/-
Conversations between the client library and the device, and what the device's answers in them come from.
-/
set_option linter.unusedSimpArgs false
namespace Tezos
open Spec

/-! ### Conversations -/

/-- Nothing between client and device: a button is pressed, or the app restarted, and nothing is sent. -/
structure Moment.Quiet (m : Moment) : Prop where
  button : m.ev.isButton = true
  reply : m.out.reply = none

/-- The client sends an APDU and gets the answer `a`, at once or after the user did something. -/
inductive Exchange (ins p1 p2 : UInt8) (data a : Bytes) : List Moment → Prop where
  | atOnce {m : Moment} (hc : Carries m.ev ins p1 p2 data) (hr : m.out.reply = some a) :
      Exchange ins p1 p2 data a [m]
  | later {m l : Moment} {q : List Moment} (hc : Carries m.ev ins p1 p2 data) (hn : m.out.reply = none)
      (hq : ∀ y ∈ q, y.Quiet) (hl : l.ev.isButton = true) (hr : l.out.reply = some a) :
      Exchange ins p1 p2 data a (m :: (q ++ [l]))

/-- A call of the client, from its beginning to its result, as events of the device. Nobody else sends APDUs meanwhile;
what the user does is not restricted. -/
inductive Talk {ρ : Type} : Client ρ → List Moment → ρ → Prop where
  | done {r : ρ} : Talk (.done r) [] r
  | quiet {c : Client ρ} {m : Moment} {t : List Moment} {r : ρ} (hm : m.Quiet) (h : Talk c t r) : Talk c (m :: t) r
  | send {ins p1 p2 : UInt8} {data a : Bytes} {next : Bytes → Client ρ} {s t : List Moment} {r : ρ}
      (he : Exchange ins p1 p2 data a s) (h : Talk (next a) t r) : Talk (.send ins p1 p2 data next) (s ++ t) r

/-- A call that exchanges one APDU. -/
theorem Talk.bind {ρ σ : Type} {c : Client ρ} {f : ρ → Client σ} {t : List Moment} {r : σ} (h : Talk (c.bind f) t r) :
    ∃ t1 t2 x, t = t1 ++ t2 ∧ Talk c t1 x ∧ Talk (f x) t2 r := by
  generalize hb : c.bind f = b at h
  induction h generalizing c with
  | done =>
    cases c with
    | done x => exact ⟨[], [], x, rfl, .done, by rw [show f x = _ from hb]; exact .done⟩
    | send => cases hb
  | quiet hm h ih =>
    obtain ⟨t1, t2, x, rfl, h1, h2⟩ := ih hb
    exact ⟨_ :: t1, t2, x, rfl, .quiet hm h1, h2⟩
  | send he h ih =>
    cases c with
    | done x => exact ⟨[], _, x, rfl, .done, by rw [show f x = _ from hb]; exact .send he h⟩
    | send ins p1 p2 data next =>
      cases hb
      obtain ⟨t1, t2, x, rfl, h1, h2⟩ := ih rfl
      exact ⟨_ ++ t1, t2, x, by simp, .send he h1, h2⟩

theorem Talk.of_done {ρ : Type} {x r : ρ} {t : List Moment} (h : Talk (.done x) t r) : r = x ∧ ∀ m ∈ t, m.Quiet := by
  generalize hb : Client.done x = b at h
  induction h with
  | done => cases hb; exact ⟨rfl, fun m hm => by cases hm⟩
  | quiet hm h ih =>
    obtain ⟨h1, h2⟩ := ih hb
    refine ⟨h1, fun m hm' => ?_⟩
    rcases List.mem_cons.mp hm' with rfl | hm'
    · exact hm
    · exact h2 m hm'
  | send => cases hb

theorem Talk.of_send {ρ : Type} {ins p1 p2 : UInt8} {data : Bytes} {next : Bytes → Client ρ} {t : List Moment} {r : ρ}
    (h : Talk (.send ins p1 p2 data next) t r) :
    ∃ q s t' a, t = q ++ s ++ t' ∧ (∀ m ∈ q, m.Quiet) ∧ Exchange ins p1 p2 data a s ∧ Talk (next a) t' r := by
  generalize hb : Client.send ins p1 p2 data next = b at h
  induction h with
  | done => cases hb
  | quiet hm h ih =>
    obtain ⟨q, s, t', a, rfl, h1, h2, h3⟩ := ih hb
    refine ⟨_ :: q, s, t', a, rfl, fun m hm' => ?_, h2, h3⟩
    rcases List.mem_cons.mp hm' with rfl | hm'
    · exact hm
    · exact h1 m hm'
  | send he h ih =>
    cases hb
    exact ⟨[], _, _, _, rfl, (fun m hm => by cases hm), he, h⟩

/-- A call of `transport`: nothing happened because the data is too long, or one APDU was exchanged. -/
theorem Talk.of_transport {ins p1 p2 : UInt8} {data : Bytes} {acc : List Nat} {t : List Moment} {r : Answer}
    (h : Talk (transport ins p1 p2 data acc) t r) :
    (256 ≤ data.length ∧ r = .error 0xffff ∧ ∀ m ∈ t, m.Quiet) ∨
    ∃ q s q' a, t = q ++ s ++ q' ∧ (∀ m ∈ q, m.Quiet) ∧ (∀ m ∈ q', m.Quiet) ∧ Exchange ins p1 p2 data a s ∧
      r = if a.length < 2 then .error 0xffff else if statusOf a ∈ acc then .data a else .error (statusOf a) := by
  unfold transport at h
  split at h
  · obtain ⟨h1, h2⟩ := h.of_done
    exact .inl ⟨by assumption, h1, h2⟩
  · obtain ⟨q, s, t', a, rfl, h1, h2, h3⟩ := h.of_send
    obtain ⟨h4, h5⟩ := h3.of_done
    exact .inr ⟨q, s, t', a, rfl, h1, h5, h2, h4⟩

/-- A call of the form `transport(…).then(process, processErrorResponse)`. -/
theorem Talk.of_process {α : Type} {ins p1 p2 : UInt8} {data : Bytes} {acc : List Nat} {f : Bytes → Option α}
    {t : List Moment} {r : Response α} (h : Talk ((transport ins p1 p2 data acc).process f) t r) :
    ((256 ≤ data.length ∧ (∀ m ∈ t, m.Quiet)) ∧ r = ⟨0xffff, none⟩) ∨
    ∃ q s q' a, t = q ++ s ++ q' ∧ (∀ m ∈ q, m.Quiet) ∧ (∀ m ∈ q', m.Quiet) ∧ Exchange ins p1 p2 data a s ∧
      r = if a.length < 2 then ⟨0xffff, none⟩ else if statusOf a ∈ acc then ⟨statusOf a, f a⟩ else ⟨statusOf a, none⟩ := by
  obtain ⟨t1, t2, x, rfl, h1, h2⟩ := Talk.bind (c := transport ins p1 p2 data acc) h
  rcases h1.of_transport with ⟨hl, rfl, hq⟩ | ⟨q, s, q', a, rfl, hq, hq', he, rfl⟩
  · obtain ⟨h3, h4⟩ := h2.of_done
    exact .inl ⟨⟨hl, fun m hm => (List.mem_append.mp hm).elim (hq m) (h4 m)⟩, h3⟩
  · refine .inr ⟨q, s, q' ++ t2, a, by simp, hq, ?_⟩
    by_cases h2' : a.length < 2
    · rw [if_pos h2'] at h2
      obtain ⟨h3, h4⟩ := h2.of_done
      exact ⟨fun m hm => (List.mem_append.mp hm).elim (hq' m) (h4 m), he, by rw [if_pos h2']; exact h3⟩
    · rw [if_neg h2'] at h2 ⊢
      by_cases hs : statusOf a ∈ acc
      · rw [if_pos hs] at h2 ⊢
        obtain ⟨h3, h4⟩ := h2.of_done
        exact ⟨fun m hm => (List.mem_append.mp hm).elim (hq' m) (h4 m), he, h3⟩
      · rw [if_neg hs] at h2 ⊢
        obtain ⟨h3, h4⟩ := h2.of_done
        exact ⟨fun m hm => (List.mem_append.mp hm).elim (hq' m) (h4 m), he, h3⟩

/-! ### Deciding conversations

For the examples beside the theorems. -/

/-- Whether an event delivers an APDU. -/
def Event.carries (ev : Event) (ins p1 p2 : UInt8) (data : Bytes) : Bool :=
  match ev with
  | .apdu buf rx => decide (rx = 5 + data.length ∧ buf.length = 260 ∧ data.length ≤ 255 ∧
      buf.take (5 + data.length) = [0x80, ins, p1, p2, UInt8.ofNat data.length] ++ data)
  | _ => false

theorem Event.carries_sound {ev : Event} {ins p1 p2 : UInt8} {data : Bytes} (h : ev.carries ins p1 p2 data = true) :
    Carries ev ins p1 p2 data := by
  cases ev with
  | apdu buf rx =>
    simp only [Event.carries, decide_eq_true_eq] at h
    obtain ⟨rfl, hl, hd, ht⟩ := h
    refine ⟨buf.drop (5 + data.length), ?_, ?_⟩
    · conv => lhs; rw [← List.take_append_drop (5 + data.length) buf, ht]
    · rw [List.length_drop, hl]; omega
  | _ => cases h

/-- The result of a call that sends what the events of a history carry, and gets the answers given there. -/
def play {ρ : Type} : List Moment → Client ρ ⊕ (Bytes → Client ρ) → Option ρ
  | [], .inl (.done r) => some r
  | [], _ => none
  | m :: t, .inl c =>
    if m.ev.isButton && m.out.reply.isNone then play t (.inl c) else
    match c with
    | .done _ => none
    | .send ins p1 p2 data next =>
      if m.ev.carries ins p1 p2 data then
        match m.out.reply with
        | some a => play t (.inl (next a))
        | none => play t (.inr next)
      else none
  | m :: t, .inr next =>
    if m.ev.isButton then
      match m.out.reply with
      | some a => play t (.inl (next a))
      | none => play t (.inr next)
    else none

theorem play_talk {ρ : Type} {t : List Moment} {r : ρ} :
    (∀ c : Client ρ, play t (.inl c) = some r → Talk c t r) ∧
    (∀ next : Bytes → Client ρ, play t (.inr next) = some r → ∃ q l t' a, t = q ++ l :: t' ∧ (∀ y ∈ q, y.Quiet) ∧
      l.ev.isButton = true ∧ l.out.reply = some a ∧ Talk (next a) t' r) := by
  induction t with
  | nil =>
    refine ⟨fun c h => ?_, fun next h => by cases h⟩
    cases c with
    | done x => cases h; exact .done
    | send => cases h
  | cons m t ih =>
    refine ⟨fun c h => ?_, fun next h => ?_⟩
    · unfold play at h
      split at h
      · rename_i hq
        simp only [Bool.and_eq_true, Option.isNone_iff_eq_none] at hq
        exact .quiet ⟨hq.1, hq.2⟩ (ih.1 c h)
      · cases c with
        | done x => cases h
        | send ins p1 p2 data next =>
          dsimp only at h
          split at h
          · rename_i hc
            have hc := Event.carries_sound hc
            cases hr : m.out.reply with
            | some a =>
              rw [hr] at h
              exact .send (s := [m]) (.atOnce hc hr) (ih.1 _ h)
            | none =>
              rw [hr] at h
              obtain ⟨q, l, t', a, rfl, hq, hl, hlr, ht⟩ := ih.2 _ h
              have := Talk.send (s := m :: (q ++ [l])) (.later hc hr hq hl hlr) ht
              simpa using this
          · cases h
    · unfold play at h
      split at h
      · rename_i hb
        cases hr : m.out.reply with
        | some a =>
          rw [hr] at h
          exact ⟨[], m, t, a, rfl, (fun y hy => by cases hy), hb, hr, ih.1 _ h⟩
        | none =>
          rw [hr] at h
          obtain ⟨q, l, t', a, rfl, hq, hl, hlr, ht⟩ := ih.2 _ h
          refine ⟨m :: q, l, t', a, rfl, fun y hy => ?_, hl, hlr, ht⟩
          rcases List.mem_cons.mp hy with rfl | hy
          · exact ⟨hb, hr⟩
          · exact hq y hy
      · cases h

/-! ### Answers of the device -/

theorem statusWord_rejected : statusWord .commandNotAllowed = [0x69, 0x86] := by decide

theorem Dev.reject_says {s : Dev} {r : Bytes} (h : s.reject.2.reply = some r) : r = [0x69, 0x86] := by
  unfold Dev.reject at h
  dsimp only at h
  split at h
  · cases h
  · exact (Option.some.inj h).symm.trans statusWord_rejected

theorem Dev.redraw_says {u : Upd} {s : Dev} {r : Bytes} (h : (s.redraw u).2.reply = some r) : r = [0x69, 0x86] := by
  unfold Dev.redraw at h
  cases u with
  | rejected z => exact Dev.reject_says (s := { s with zui := z }) h
  | _ => cases h

theorem Dev.onError_says {c : Bool} {f : XError → XError} {s : Dev} {r : Bytes} (h : (s.onError c f).2.reply = some r) :
    r = statusWord .dataInvalid := by
  unfold Dev.onError at h
  split at h
  · unfold Dev.acceptError at h
    dsimp only at h
    split at h
    · cases h
    · exact (Option.some.inj h).symm
  · cases h

/-- A button press is answered with other words than 0x6986 and 0x6984 only if it approves the pending review, and then
as the review says. -/
theorem Dev.button_says {cfg : Config} {env : Env} {ev : Event} {s : Dev} {r : Bytes} (hb : ev.isButton = true)
    (h : (s.step cfg env ev).2.reply = some r) (bad : r ≠ [0x69, 0x86]) (bad2 : r ≠ statusWord .dataInvalid) :
    ∃ v, Approves s ev v ∧ (v.accept env s.idle).deliver.2.reply = some r ∧
      (s.step cfg env ev).2.sig = (v.accept env s.idle).deliver.2.sig := by
  cases ev with
  | apdu => cases hb
  | relaunch => cases h
  | expert =>
    simp only [Dev.step] at h
    split at h <;> cases h
  | left =>
    simp only [Dev.step] at h
    split at h
    · split at h
      · exact absurd (Dev.redraw_says h) bad
      · exact absurd (Dev.onError_says h) bad2
      · cases h
    · cases h
  | right =>
    simp only [Dev.step] at h
    split at h
    · split at h
      · exact absurd (Dev.redraw_says h) bad
      · exact absurd (Dev.onError_says h) bad2
      · cases h
    · cases h
  | both =>
    simp only [Dev.step] at h ⊢
    split at h
    · rename_i hrun
      rw [if_pos hrun]
      split at h
      · rename_i k l1 l2 hscr
        have hnot : s.zui.chosen = .approve → ∃ v, s.view = some v := by
          intro ha
          cases hv : s.view with
          | some v => exact ⟨v, rfl⟩
          | none =>
            exfalso
            have hq : s.approve env = (s.idle, .quiet) := by
              unfold Dev.approve
              dsimp only
              split
              · rfl
              · rename_i w hw
                rw [hv] at hw
                cases hw
            unfold Dev.pressBoth at h
            simp only [ha, hq] at h
            split at h
            · have e : (s.idle.redraw (s.idle.zui.expertJump (s.idle.viewer env))).2.reply = some r := by
                simpa [Output.quiet] using h
              exact bad (Dev.redraw_says e)
            · cases h
        have hact : s.zui.chosen = .approve := by
          cases ha : s.zui.chosen with
          | approve => rfl
          | nothing =>
            exfalso
            unfold Dev.pressBoth at h
            simp only [ha] at h
            split at h
            · have e : (s.redraw (s.zui.expertJump (s.viewer env))).2.reply = some r := by
                simpa [Output.quiet] using h
              exact bad (Dev.redraw_says e)
            · cases h
          | reject =>
            exfalso
            unfold Dev.pressBoth at h
            simp only [ha] at h
            split at h
            · cases hj : s.reject.2.reply with
              | some x =>
                rw [hj] at h
                cases h
                exact bad (Dev.reject_says hj)
              | none =>
                rw [hj] at h
                exact bad (Dev.redraw_says (by simpa using h))
            · exact bad (Dev.reject_says h)
        obtain ⟨v, hv⟩ := hnot hact
        have happ : Approves s .both v := ⟨hrun, rfl, ⟨k, l1, l2, hscr⟩, hact, hv⟩
        obtain ⟨_, h2, h3⟩ := happ.step (cfg := cfg) env
        simp only [Dev.step, hrun, if_true, hscr] at h2 h3
        exact ⟨v, happ, by rw [← h3]; exact h, h2⟩
      · exact absurd (Dev.onError_says h) bad2
      · cases h
    · cases h

/-- A button press is answered with success only if it approves the pending review, and then as the review says. -/
theorem Dev.button_success {cfg : Config} {env : Env} {ev : Event} {s : Dev} {r : Bytes} (hb : ev.isButton = true)
    (h : (s.step cfg env ev).2.reply = some r) (hr : statusOf r = 0x9000) :
    ∃ v, Approves s ev v ∧ (v.accept env s.idle).deliver.2.reply = some r ∧
      (s.step cfg env ev).2.sig = (v.accept env s.idle).deliver.2.sig :=
  Dev.button_says hb h (by rintro rfl; revert hr; decide) (by rintro rfl; revert hr; decide)

/-- A stopped app answers nothing, and stays stopped while a review is left over. -/
theorem Dev.step_stopped {cfg : Config} {env : Env} {ev : Event} {s : Dev} (h : s.running = false) :
    (s.step cfg env ev).2.reply = none ∧
    ∀ v, (s.step cfg env ev).1.view = some v → (s.step cfg env ev).1.running = false := by
  cases ev with
  | relaunch => exact ⟨rfl, fun v hv => by cases hv⟩
  | _ =>
    simp only [Dev.step, h, Bool.false_eq_true, if_false, false_and]
    exact ⟨rfl, fun _ _ => by trivial⟩

/-- An APDU is refused by the dispatcher with an error, or runs a command. -/
theorem Dev.apdu_refused_or (cfg : Config) (env : Env) (buf : Bytes) (rx : Nat) {s : Dev} (hrun : s.running = true) :
    (∃ e, e ≠ .success ∧ s.step cfg env (.apdu buf rx) = (s.fail e).deliver) ∨
    ∃ c, Received cfg s (.apdu buf rx) buf rx c ∧ s.step cfg env (.apdu buf rx) =
      (s.exec cfg env c (buf.getD 2 0) (buf.getD 3 0) (apduPayload buf)).deliver := by
  simp only [Dev.step, hrun, if_true]
  unfold Dev.dispatch
  split
  · exact .inl ⟨_, by decide, rfl⟩
  · rename_i hlen
    split
    · exact .inl ⟨_, by decide, rfl⟩
    · rename_i hcla
      split
      · exact .inl ⟨_, by decide, rfl⟩
      · rename_i c hc
        have h0 : 0 < buf.length := by omega
        have h1 : 1 < buf.length := by omega
        refine .inr ⟨c, ⟨rfl, hrun, by omega, ?_, buf.getD 1 0, ?_, hc⟩, rfl⟩
        · simp only [ne_eq, Decidable.not_not, List.getD_eq_getElem?_getD, List.getElem?_eq_getElem h0,
            Option.getD_some] at hcla
          rw [List.getElem?_eq_getElem h0, hcla]
        · simp [List.getD_eq_getElem?_getD, List.getElem?_eq_getElem h1]

theorem Res.Bad.not_shown {r : Res} (h : r.Bad) (e : Option Bytes) : r.out ≠ .shown e := by
  rcases h.2 with ⟨e', _, h⟩ | ⟨f, h⟩ <;> rw [h] <;> simp

theorem Dev.resetHwm_not_shown (env : Env) (l : UInt32) (s : Dev) (e : Option Bytes) :
    (s.resetHwm env l).out ≠ .shown e := by
  cases s.resetHwm_cases env l with
  | main _ _ hb => exact hb.not_shown e
  | test _ _ _ hb => exact hb.not_shown e
  | chain _ _ _ h =>
    rcases h with ⟨_, hb⟩ | ⟨_, _, h, _⟩
    · exact hb.not_shown e
    · rw [h]; simp
  | init _ _ _ _ h =>
    rcases h with ⟨_, hb⟩ | ⟨_, h, _⟩
    · exact hb.not_shown e
    · rw [h]; simp

theorem Dev.autoSign_not_shown (env : Env) (h : Bool) (digest msg : Bytes) (s : Dev) (e : Option Bytes) :
    (s.autoSign env h digest msg (specDecide msg)).out ≠ .shown e := by
  rcases s.autoSign_cases env h digest msg (specDecide msg) (fun _ _ => specDecide_error) with
    hf | ⟨b, w, hb, hdec, hf | ⟨hw, k', sig, hk', hsg, hre⟩⟩
  · exact hf.bad.not_shown e
  · exact hf.bad.not_shown e
  · rw [hre]; simp

/-- A review that is not left pending was answered with a rejection. -/
theorem Dev.show_rejected (env : Env) (v : View) (s : Dev) (h : (s.show env v).st.view = none) :
    (s.show env v).out = .shown (some [0x69, 0x86]) := by
  unfold Dev.show at h ⊢
  dsimp only at h ⊢
  split
  · rename_i hz; simp only [hz, reduceCtorEq] at h
  · rename_i hz; simp only [hz, reduceCtorEq] at h
  · rw [statusWord_rejected]
  · rename_i hz; simp only [hz, Dev.fault, reduceCtorEq] at h
  · rename_i hz; simp only [hz, Dev.fault, reduceCtorEq] at h

theorem Dev.show_not_ok (env : Env) (v : View) (s : Dev) (d : Bytes) : (s.show env v).out ≠ .ok d := by
  unfold Dev.show
  dsimp only
  split <;> simp [Dev.fault]

/-- A command that is not answered at once opened a review, or the app is stopped. -/
theorem Dev.apdu_silent {cfg : Config} {env : Env} {buf : Bytes} {rx : Nat} {s : Dev}
    (h : (s.step cfg env (.apdu buf rx)).2.reply = none) :
    (∃ v, OpensAt cfg env s (.apdu buf rx) v (s.step cfg env (.apdu buf rx)).1) ∨
    (s.step cfg env (.apdu buf rx)).1.running = false := by
  by_cases hrun : s.running = true
  · have faults : ∀ r : Res, (∀ e, r.out ≠ .shown e) → r.deliver.2.reply = none → r.deliver.1.running = false := by
      intro r hs hn
      unfold Res.deliver at hn ⊢
      split
      · rename_i hr; simp only [hr, reduceCtorEq] at hn
      · rename_i hr; simp only [hr, reduceCtorEq] at hn
      · rename_i hr; exact absurd hr (hs _)
      · rfl
    rcases Dev.apdu_refused_or cfg env buf rx hrun with ⟨e, _, he⟩ | ⟨c, hrec, he⟩
    · rw [he] at h
      cases h
    · cases s.exec_cases cfg env c (buf.getD 2 0) (buf.getD 3 0) (apduPayload buf) with
      | still p u hs _ => 
        rw [he] at h ⊢
        exact .inr (faults _ hs.2.2 h)
      | reset p hc hp hl hr =>
        rw [he] at h ⊢
        refine .inr (faults _ ?_ h)
        rw [hr]
        exact s.resetHwm_not_shown env _
      | auto hh u u' q2 first m ref k digest hc hu hcv hp hk hd hm hout hs hst =>
        rw [he] at h ⊢
        refine .inr (faults _ ?_ h)
        rw [hout]
        exact Dev.autoSign_not_shown env hh digest m _
      | opened v p u u' ho hout hsig hst hupl =>
        rcases (s.withUpload p u).show_view env v with hv | hv
        · exact .inl ⟨v, Dev.opened_at hrec ho hout hst hupl hv⟩
        · exfalso
          rw [he] at h
          unfold Res.deliver at h
          rw [hout, Dev.show_rejected env v _ hv] at h
          cases h
  · simp only [Bool.not_eq_true] at hrun
    simp only [Dev.step, hrun, Bool.false_eq_true, if_false]
    exact .inr trivial

theorem Moment.Opens.apdu {cfg : Config} {m : Moment} {v : View} (h : m.Opens cfg v) : m.ev.isButton = false := by
  obtain ⟨buf, rx, c, p, u, hrec, _⟩ := h.ex
  rw [hrec.ev]
  rfl

theorem Carries.isApdu {ev : Event} {ins p1 p2 : UInt8} {data : Bytes} (h : Carries ev ins p1 p2 data) :
    ∃ buf rx, ev = .apdu buf rx := by
  obtain ⟨tail, h, _⟩ := h.ex
  exact ⟨_, _, h⟩

theorem Dev.run_stopped {cfg : Config} {s : Dev} {es : List (Env × Event)} {v : View} (hs : s.running = false)
    (hv : ∀ x ∈ s.trace cfg es, x.st.view = some v) (h : (s.run cfg es).1.view = some v) :
    (s.run cfg es).1.running = false := by
  induction es generalizing s with
  | nil => exact hs
  | cons e es ih =>
    refine ih (s := (s.step cfg e.1 e.2).1) ?_ (fun x hx => hv x (List.mem_cons_of_mem _ hx)) h
    cases es with
    | nil => exact (Dev.step_stopped hs).2 v h
    | cons e' es' => exact (Dev.step_stopped hs).2 v (hv _ (List.mem_cons_of_mem _ (List.mem_cons_self ..)))

/-- A command that is answered later opened a review, which is pending until then. -/
theorem answered_later {cfg : Config} {s : Dev} {es : List (Env × Event)} {a q b : List Moment} {m l : Moment}
    {buf r : Bytes} {rx : Nat} (h : s.trace cfg es = a ++ m :: (q ++ l :: b)) (hm : m.ev = .apdu buf rx)
    (hn : m.out.reply = none) (hq : ∀ y ∈ q, y.ev.isButton = true) (hl : l.ev.isButton = true)
    (hr : l.out.reply = some r) :
    ∃ v, m.Opens cfg v ∧ (∀ y ∈ q, y.st.view = some v ∧ ∀ w, ¬ y.Opens cfg w) ∧ l.st.view = some v := by
  obtain ⟨ea, eb, rfl, _, _, _, hout, hrest⟩ := Dev.trace_split h
  obtain ⟨ec, ed, rfl, _, hq', hl', hlout, _⟩ := Dev.trace_split hrest.symm
  rw [hlout] at hr
  obtain ⟨⟨v, hv⟩, _⟩ := Dev.button_reply hl hr
  have hv' : ((m.next cfg).run cfg ec).1.view = some v := by rw [← hl']; exact hv
  rcases Dev.run_view hv' with ⟨hv0, hall⟩ | ⟨c, m0, d, hc, ho, _⟩
  · rw [← hq'] at hall
    have hsil : m.st.step cfg m.env m.ev = m.st.step cfg m.env (.apdu buf rx) := by rw [hm]
    rw [hout, hsil] at hn
    rcases Dev.apdu_silent hn with ⟨w, hw⟩ | hstop
    · have hw' : m.Opens cfg w := by
        unfold Moment.Opens Moment.next
        rw [hm]
        exact hw
      have : w = v := by
        have := hw'.view
        rw [hv0] at this
        exact (Option.some.inj this).symm
      subst this
      exact ⟨w, hw', hall, hv⟩
    · exfalso
      rw [← hsil] at hstop
      have hst : ((m.next cfg).run cfg ec).1.running = false :=
        Dev.run_stopped hstop (fun x hx => (hall x (by rw [hq']; exact hx)).1) hv'
      rw [← hl'] at hst
      rw [(Dev.step_stopped hst).1] at hr
      cases hr
  · exfalso
    have := hq m0 (by rw [hq', hc]; simp)
    rw [ho.apdu] at this
    cases this

/-! ### Answers to signing commands -/

/-- What a signing command does. -/
inductive Signing (env : Env) (s : Dev) (acc : Accessor) (p1 p2 : UInt8) (payload : Option Bytes) (r : Res) : Prop where
  | more (u : Upl) (hu : s.upl.upload env.copyF env.appendF acc p1 p2 payload = (u, .more)) (ho : r.out = .ok [])
      (hs : r.sig = none)
  | refused (u : Upl) (e : ApduError) (hu : s.upl.upload env.copyF env.appendF acc p1 p2 payload = (u, .err e))
      (ho : r.out = .err e)
  | bad (h : r.Bad)
  | shown (e : Option Bytes) (h : r.out = .shown e)
  | signed (d : Bytes) (x : SigRec) (ho : r.out = .ok d) (hs : r.sig = some x)

theorem Dev.show_signing {env : Env} {v : View} {s : Dev} :
    (s.show env v).Bad ∨ ∃ e, (s.show env v).out = .shown e := by
  unfold Dev.show
  dsimp only
  split
  · exact .inr ⟨_, rfl⟩
  · exact .inr ⟨_, rfl⟩
  · exact .inr ⟨_, rfl⟩
  · exact .inl ⟨rfl, .inr ⟨_, rfl⟩⟩
  · exact .inl ⟨rfl, .inr ⟨_, rfl⟩⟩

theorem Dev.exec_signing (cfg : Config) (env : Env) {c : Cmd} {acc : Accessor} (p1 p2 : UInt8)
    (payload : Option Bytes) (s : Dev) (hacc : c.accessor = some acc) :
    Signing env s acc p1 p2 payload (s.exec cfg env c p1 p2 payload) := by
  have up : ∀ finish : UInt8 → Bytes → Bytes → MemRef → Dev → Res,
      (∀ q2 first data ref t, (finish q2 first data ref t).Bad ∨ (∃ e, (finish q2 first data ref t).out = .shown e) ∨
        ∃ d x, (finish q2 first data ref t).out = .ok d ∧ (finish q2 first data ref t).sig = some x) →
      Signing env s acc p1 p2 payload (s.cmdUpload env acc p1 p2 payload finish) := by
    intro finish hf
    unfold Dev.cmdUpload
    cases hr : s.upl.upload env.copyF env.appendF acc p1 p2 payload with
    | mk u r =>
      cases r with
      | more => exact .more u hr rfl rfl
      | err e => exact .refused u e hr rfl
      | panic => exact .bad ⟨rfl, .inr ⟨_, rfl⟩⟩
      | powerLoss => exact .bad ⟨rfl, .inr ⟨_, rfl⟩⟩
      | complete q2 first data ref =>
        rcases hf q2 first data ref { s with upl := u } with h | ⟨e, h⟩ | ⟨d, x, h, h'⟩
        · exact .bad h
        · exact .shown e h
        · exact .signed d x h h'
  cases c with
  | bakerSign hh =>
    cases hacc
    refine up _ fun q2 first data ref t => ?_
    rcases t.bakerSign_cases env hh q2 first data ref with
      hf | ⟨k, digest, hc, hp, hk, hd, ⟨hm, hb⟩ | ⟨rem, hrem, hb⟩⟩
    · exact .inl hf.bad
    · rw [hb]
      rcases t.autoSign_cases env hh digest data (specDecide data) (fun _ _ => specDecide_error) with
        hf | ⟨b, w, hb, hdec, hf | ⟨hw, k', sig, hk', hsg, hre⟩⟩
      · exact .inl hf.bad
      · exact .inl hf.bad
      · rw [hre]
        exact .inr (.inr ⟨_, _, rfl, rfl⟩)
    · rw [hb]
      rcases t.handleDelegation_cases env hh digest rem data _ with
        hf | ⟨branch, ops, rest, op, ho, hn, hop, hshow⟩
      · exact .inl hf.bad
      · rw [hshow]
        exact Dev.show_signing.imp_right .inl
  | sign hh =>
    cases hacc
    refine up _ fun q2 first data ref t => ?_
    rcases t.startSign_cases env hh q2 first data ref with
      hf | ⟨k, hc, hp, hf | ⟨digest, hd, ⟨rem, ops, hrem, ho, hshow⟩ | ⟨rem, hrem, hshow⟩⟩⟩
    · exact .inl hf.bad
    · exact .inl hf.bad
    · rw [hshow]
      exact Dev.show_signing.imp_right .inl
    · rw [hshow]
      exact Dev.show_signing.imp_right .inl
  | _ => cases hacc

theorem Dev.show_says {env : Env} {v : View} {s : Dev} {r : Bytes} (h : (s.show env v).out = .shown (some r)) :
    r = [0x69, 0x86] := by
  unfold Dev.show at h
  dsimp only at h
  split at h
  · cases h
  · cases h
  · cases h; rw [statusWord_rejected]
  · cases h
  · cases h

theorem Dev.exec_says {cfg : Config} {env : Env} {c : Cmd} {p1 p2 : UInt8} {payload : Option Bytes} {s : Dev} {r : Bytes}
    (h : (s.exec cfg env c p1 p2 payload).out = .shown (some r)) : r = [0x69, 0x86] := by
  cases s.exec_cases cfg env c p1 p2 payload with
  | still p u hs _ => exact absurd h (hs.2.2 _)
  | reset p hc hp hl hr => rw [hr] at h; exact absurd h (s.resetHwm_not_shown env _ _)
  | auto hh u u' q2 first m ref k digest hc hu hcv hp hk hd hm hout hs hst =>
    rw [hout] at h
    exact absurd h (Dev.autoSign_not_shown env hh digest m _ _)
  | opened v p u u' ho hout hsig hst hupl => rw [hout] at h; exact Dev.show_says h

theorem statusOf_append (d : Bytes) (a b : UInt8) : statusOf (d ++ [a, b]) = a.toNat * 256 + b.toNat := by
  unfold statusOf
  have h1 : (d ++ [a, b]).length - 2 = d.length := by simp
  have h2 : (d ++ [a, b]).length - 1 = d.length + 1 := by simp
  rw [h1, h2]
  simp [List.getD_eq_getElem?_getD, List.getElem?_append_right]

theorem statusOf_success {r : Bytes} (hl : 2 ≤ r.length) (h : statusOf r = 0x9000) : ∃ d, r = d ++ [0x90, 0x00] := by
  obtain ⟨d, a, b, rfl⟩ : ∃ d a b, r = d ++ [a, b] := by
    refine ⟨r.take (r.length - 2), r[r.length - 2]'(by omega), r[r.length - 1]'(by omega), ?_⟩
    have h2 : r.drop (r.length - 2) = [r[r.length - 2]'(by omega), r[r.length - 1]'(by omega)] := by
      rw [List.drop_eq_getElem_cons (by omega), List.drop_eq_getElem_cons (by omega), List.drop_eq_nil_of_le (by omega)]
      simp only [List.cons.injEq, and_true, true_and]
      congr 1
      omega
    conv => lhs; rw [← List.take_append_drop (r.length - 2) r, h2]
  rw [statusOf_append] at h
  have ha := a.toNat_lt
  have hb := b.toNat_lt
  have h1 : a.toNat = 0x90 := by omega
  have h2 : b.toNat = 0 := by omega
  exact ⟨d, by rw [show a = 0x90 from UInt8.toNat_inj.mp h1, show b = 0 from UInt8.toNat_inj.mp h2]⟩

theorem status_success {e : ApduError} (h : statusOf (statusWord e) = 0x9000) : e = .success := by
  revert h
  cases e <;> decide

theorem last_unique {α : Type} {P : α → Prop} {a b a' b' : List α} {m m' : α} (h : a ++ m :: b = a' ++ m' :: b')
    (hm : P m) (hm' : P m') (hb : ∀ y ∈ b, ¬ P y) (hb' : ∀ y ∈ b', ¬ P y) : a = a' ∧ m = m' ∧ b = b' := by
  rcases List.append_eq_append_iff.mp h with ⟨c, rfl, h'⟩ | ⟨c, rfl, h'⟩
  · cases c with
    | nil =>
      simp only [List.nil_append, List.cons.injEq] at h'
      exact ⟨by simp, h'.1, h'.2⟩
    | cons x c =>
      simp only [List.cons_append, List.cons.injEq] at h'
      exact absurd hm' (hb m' (by rw [h'.2]; simp))
  · cases c with
    | nil =>
      simp only [List.nil_append, List.cons.injEq] at h'
      exact ⟨by simp, h'.1.symm, h'.2.symm⟩
    | cons x c =>
      simp only [List.cons_append, List.cons.injEq] at h'
      exact absurd hm (hb' m (by rw [h'.2]; simp))

theorem sessionIn_append (cfg : Config) (a b : List Moment) :
    sessionIn cfg (a ++ b) = b.foldl (sessionStep cfg) (sessionIn cfg a) := List.foldl_append

theorem Event.packet_button {ev : Event} {b : Build} (h : ev.isButton = true) : ev.packet b = none := by
  cases ev <;> first | rfl | cases h

/-- A signing command answered with success acknowledged a packet, or signed the message that the packet completed. -/
theorem Exchange.success {cfg : Config} {new : NewDevice} {es : List (Env × Event)} {past seg rest : List Moment}
    {ins p1 p2 : UInt8} {data a : Bytes} {f : Accessor} (hu : new.upload.length = uploadCapacity)
    (hg : ∀ e ∈ es, Good e.1 e.2) (h : (Dev.factory new).trace cfg es = past ++ (seg ++ rest))
    (he : Exchange ins p1 p2 data a seg) (hf : familyOf cfg.build ins = some f) (hs : statusOf a = 0x9000) :
    (∃ m, seg = [m] ∧ a = [0x90, 0x00] ∧ m.out.sig = none ∧ acks (sessionIn cfg past) ⟨f, p1, p2, data⟩ = true ∧
      sessionIn cfg (past ++ seg) = (feed (sessionIn cfg past) ⟨f, p1, p2, data⟩).1) ∨
    ∃ i l x q2 first r, seg = i ++ [l] ∧ (∀ y ∈ i, y.out.sig = none) ∧ l.out.sig = some x ∧ r ∈ seg ∧
      a = (if ins ∈ hashInstructions then x.digest else []) ++ x.sig ++ [0x90, 0x00] ∧
      r.env.cr.blake2b 32 x.msg = some x.digest ∧ l.env.cr.sign x.curve x.path x.digest = some x.sig ∧
      (feed (sessionIn cfg past) ⟨f, p1, p2, data⟩).2 = some (q2, first, x.msg) ∧
      Curve.ofByte q2 = some x.curve ∧ first = UInt8.ofNat x.path.length :: x.path.flatMap be32 := by
  have hc : ∃ c, command cfg.build ins = some c ∧ c.accessor = some f := by
    rw [familyOf_eq] at hf
    exact Option.bind_eq_some_iff.mp hf
  obtain ⟨c, hc, hacc⟩ := hc
  have inv : ∀ m rest', past ++ (seg ++ rest) = past ++ m :: rest' → UplInv m.st.upl (sessionIn cfg past) := by
    intro m rest' e
    obtain ⟨ea, eb, rfl, _, ha', hm0, _, _⟩ := Dev.trace_split (h.trans e)
    rw [ha', hm0]
    exact factory_session hu fun e he => hg e (by simp [he])
  cases he with
  | @atOnce m hcar hr =>
    obtain ⟨ea, eb, hes, _, _, _, hout, _⟩ := Dev.trace_split h
    have hgood : Good m.env m.ev := hg (m.env, m.ev) (by rw [hes]; simp)
    have hi := inv m rest rfl
    have hrun : m.st.running = true := by
      cases hb : m.st.running with
      | true => rfl
      | false => rw [hout, (Dev.step_stopped hb).1] at hr; cases hr
    have hstep := hcar.step (env := m.env) hrun hc
    have hfed := Upl.upload_fed hi ⟨f, p1, p2, data⟩ hcar.length
    rw [hout, hstep] at hr
    have status : ∀ e, (m.st.exec cfg m.env c p1 p2 (some data)).out = .err e → e = .success := by
      intro e ho
      unfold Res.deliver at hr
      rw [ho] at hr
      cases hr
      exact status_success hs
    cases m.st.exec_signing cfg m.env p1 p2 (some data) hacc with
    | more u hup ho hsig =>
      refine .inl ⟨m, rfl, ?_, ?_, ?_, ?_⟩
      · unfold Res.deliver at hr
        rw [ho] at hr
        cases hr
        decide
      · rw [hout, hstep]
        exact Res.deliver_none hsig
      · rw [hgood.copy, hgood.append] at hup
        simp only [hup] at hfed
        cases hx : (feed (sessionIn cfg past) ⟨f, p1, p2, data⟩).2 with
        | none =>
          have := (hfed.none hx).1
          split at this
          · assumption
          · obtain ⟨e, this, _⟩ := this
            cases this
        | some y =>
          obtain ⟨y1, y2, y3⟩ := y
          obtain ⟨ref, this, _⟩ := hfed.some y1 y2 y3 hx
          cases this
      · obtain ⟨buf, rx, hev⟩ := hcar.isApdu
        rw [sessionIn_append]
        simp only [List.foldl_cons, List.foldl_nil, sessionStep, hrun, if_true, hcar.packet hf]
        rw [if_neg (by rw [hev]; simp)]
    | refused u e hup ho =>
      exfalso
      have := status e ho
      subst this
      rw [hgood.copy, hgood.append] at hup
      simp only [hup] at hfed
      cases hx : (feed (sessionIn cfg past) ⟨f, p1, p2, data⟩).2 with
      | none =>
        have := (hfed.none hx).1
        split at this
        · cases this
        · obtain ⟨e, this, hne⟩ := this
          cases this
          exact hne rfl
      | some y =>
        obtain ⟨y1, y2, y3⟩ := y
        obtain ⟨ref, this, _⟩ := hfed.some y1 y2 y3 hx
        cases this
    | bad hb =>
      exfalso
      rcases hb.2 with ⟨e, hne, ho⟩ | ⟨ff, ho⟩
      · exact hne (status e ho)
      · unfold Res.deliver at hr
        rw [ho] at hr
        cases hr
    | shown e ho =>
      exfalso
      unfold Res.deliver at hr
      rw [ho] at hr
      have hr : e = some a := hr
      rw [hr] at ho
      rw [Dev.exec_says ho] at hs
      revert hs
      decide
    | signed d x ho hsig =>
      have hx : (m.st.step cfg m.env m.ev).2.sig = some x := by
        rw [hstep]
        unfold Res.deliver
        rw [ho]
        exact hsig
      obtain ⟨buf0, rx0, hev⟩ := hcar.isApdu
      have hno : ∀ v, ¬ Approves m.st m.ev v := by
        intro v hv
        have := hv.2
        rw [hev] at this
        cases this
      refine .inr ⟨[], m, x, ?_⟩
      cases Dev.step_signed hx with
      | review hh p' ha' => exact absurd ha' (hno _)
      | delegation hh br op ha' => exact absurd ha' (hno _)
      | consensus hh buf rx hrec u q2 first ref hup hcv hp hk hd hsg hrep b it hb hi' =>
        obtain ⟨ins', hi1, hi2⟩ := hrec.cmd
        obtain ⟨tail, hev', _⟩ := hcar.ex
        obtain ⟨buf', hrec', e1, e2, e3⟩ := hcar.received hrun hc
        have hbuf : buf = buf' := by
          have h1 := hrec.ev
          rw [hrec'.ev] at h1
          exact (Event.apdu.inj h1).1.symm
        subst hbuf
        have hins : ins' = ins := by
          have h1 := hrec.ev
          rw [hev'] at h1
          have h2 := (Event.apdu.inj h1).1
          rw [← h2] at hi1
          exact (Option.some.inj hi1).symm
        subst hins
        rw [hi2] at hc
        cases hc
        cases hacc
        rw [e1, e2, e3] at hup
        refine ⟨q2, first, m, rfl, (fun y hy => by cases hy), by rw [hout]; exact hx, by simp, ?_, hd, hsg, ?_, hcv,
          (Path.read_ok.mp hp).2.2.2⟩
        · rw [← hstep, hrep] at hr
          rw [← Option.some.inj hr]
          exact sigReply_hash (command_hash (.inr hi2)) _ _
        · exact (hup.feed hi hcar.length hgood.copy hgood.append).1
  | @later m l q hcar hn hq hl hr =>
    obtain ⟨buf0, rx0, hev⟩ := hcar.isApdu
    have ht : (Dev.factory new).trace cfg es = past ++ m :: (q ++ l :: rest) := by rw [h]; simp
    obtain ⟨v, ho, hqv, hlv⟩ := answered_later ht hev hn (fun y hy => (hq y hy).button) hl hr
    have ht' : (Dev.factory new).trace cfg es = (past ++ m :: q) ++ l :: rest := by rw [ht]; simp
    obtain ⟨ea, eb, hes, _, _, _, hlout, _⟩ := Dev.trace_split ht'
    have hr' := hr
    rw [hlout] at hr'
    obtain ⟨v', happ, hrep, hsig⟩ := Dev.button_success hl hr' hs
    have : v' = v := by
      have := happ.view
      rw [hlv] at this
      exact (Option.some.inj this).symm
    subst this
    obtain ⟨buf, rx, c', p, u, hrec, hop, hp, hmem⟩ := ho.memory
    have hcc : c' = c := by
      obtain ⟨ins', hi1, hi2⟩ := hrec.cmd
      obtain ⟨tail, hev', _⟩ := hcar.ex
      have h1 := hrec.ev
      rw [hev'] at h1
      have h2 := (Event.apdu.inj h1).1
      rw [← h2] at hi1
      have : ins' = ins := (Option.some.inj hi1).symm
      subst this
      rw [hi2] at hc
      exact Option.some.inj hc
    subst hcc
    have hx : ∃ x hh, (l.st.step cfg l.env l.ev).2.sig = some x ∧ (c' = .sign hh ∨ c' = .bakerSign hh) ∧
        a = sigReply hh x.digest x.sig ++ statusWord .success ∧ v'.signs = some (x.digest, x.msg) ∧
        isConsensusMagic x.msg = false ∧ m.env.cr.blake2b 32 x.msg = some x.digest ∧
        l.env.cr.sign x.curve x.path x.digest = some x.sig := by
      have review : ∀ hh d ref mm, c' = .sign hh → v' = .sign hh d ref mm → isConsensusMagic mm = false →
          m.env.cr.blake2b 32 mm = some d → ∃ x hh, (l.st.step cfg l.env l.ev).2.sig = some x ∧
            (c' = .sign hh ∨ c' = .bakerSign hh) ∧
            a = sigReply hh x.digest x.sig ++ statusWord .success ∧ v'.signs = some (x.digest, x.msg) ∧
            isConsensusMagic x.msg = false ∧ m.env.cr.blake2b 32 x.msg = some x.digest ∧
            l.env.cr.sign x.curve x.path x.digest = some x.sig := by
        intro hh d ref mm hc' hv hmm hd
        subst hv
        cases View.accept_sign l.env hh d ref mm l.st.idle with
        | bad hst hb =>
          exfalso
          rcases hb.2 with ⟨e, hne, ho⟩ | ⟨ff, ho⟩
          · unfold Res.deliver at hrep
            rw [ho] at hrep
            cases hrep
            exact hne (status_success hs)
          · unfold Res.deliver at hrep
            rw [ho] at hrep
            cases hrep
        | done path curve sig hpp hsg hre =>
          rw [hre] at hrep hsig
          cases hrep
          exact ⟨_, hh, hsig, .inl hc', rfl, rfl, hmm, hd, hsg⟩
      have delegation : ∀ hh d ref op mm, c' = .bakerSign hh → v' = .bakingSign hh d ref op mm →
          isConsensusMagic mm = false → m.env.cr.blake2b 32 mm = some d →
          ∃ x hh, (l.st.step cfg l.env l.ev).2.sig = some x ∧ (c' = .sign hh ∨ c' = .bakerSign hh) ∧
            a = sigReply hh x.digest x.sig ++ statusWord .success ∧ v'.signs = some (x.digest, x.msg) ∧
            isConsensusMagic x.msg = false ∧ m.env.cr.blake2b 32 x.msg = some x.digest ∧
            l.env.cr.sign x.curve x.path x.digest = some x.sig := by
        intro hh d ref op mm hc' hv hmm hd
        subst hv
        have he : View.accept l.env (.bakingSign hh d ref op mm) l.st.idle = l.st.idle.bakingSign l.env hh d mm := rfl
        rw [he] at hrep hsig
        rcases l.st.idle.bakingSign_cases l.env hh d mm with hfl | ⟨k, sig, hk, hsg, hre⟩
        · exfalso
          rcases hfl.bad.2 with ⟨e, hne, ho⟩ | ⟨ff, ho⟩
          · unfold Res.deliver at hrep
            rw [ho] at hrep
            cases hrep
            exact hne (status_success hs)
          · unfold Res.deliver at hrep
            rw [ho] at hrep
            cases hrep
        · rw [hre] at hrep hsig
          cases hrep
          exact ⟨_, hh, hsig, .inr hc', rfl, rfl, hmm, hd, hsg⟩
      cases hop with
      | operation hu hc hp hd ho => exact review _ _ _ _ rfl rfl rfl hd
      | michelson hu hc hp hd => exact review _ _ _ _ rfl rfl rfl hd
      | baking hu hc hp hk hd ho hn' hop => exact delegation _ _ _ _ _ rfl rfl rfl hd
      | addr hcmd => rcases hcmd with rfl | ⟨rfl, _⟩ <;> cases hacc
      | _ => cases hacc
    obtain ⟨x, hh, hxs, hch, ha, hvs, hmm, hd, hsg⟩ := hx
    have hlx : l.out.sig = some x := by rw [hlout]; exact hxs
    obtain ⟨v2, a2, m2, b2, k, q2, first, hpast, happ2, ho2, hb2, hk2, hfeed, hkey⟩ :=
      C43_requested_key_partial cfg new hu es hg _ _ _ ht' x hlx hmm
    obtain ⟨rfl, rfl, rfl⟩ := last_unique (P := fun y => ∃ w, y.Opens cfg w) hpast ⟨_, ho⟩ ⟨_, ho2⟩
      (fun y hy ⟨w, hw⟩ => (hqv y hy).2 w hw) (fun y hy ⟨w, hw⟩ => (hb2 y hy).2 w hw)
    rw [hcar.packet hf] at hk2
    cases hk2
    obtain ⟨hcv, hfirst⟩ := hkey (.inl fun y hy => Event.packet_button (hq y hy).button)
    refine .inr ⟨m :: q, l, x, q2, first, m, by simp, ?_, hlx, by simp, ?_, hd, hsg, hfeed, hcv, hfirst⟩
    · have quiet : ∀ y ∈ m :: q, y.out.reply = none := by
        intro y hy
        rcases List.mem_cons.mp hy with rfl | hy
        · exact hn
        · exact (hq y hy).reply
      intro y hy
      have hyt : y ∈ (Dev.factory new).trace cfg es := by rw [ht']; simp only [List.mem_append]; left; right; exact hy
      obtain ⟨ya, yb, hyab⟩ := List.append_of_mem hyt
      cases hys : y.out.sig with
      | none => rfl
      | some z =>
        obtain ⟨_, _, _, _, _, _, _, _, hrr, _⟩ := C45_reply_layout cfg new es ya yb y hyab z hys
        rw [quiet y hy] at hrr
        cases hrr
    · rw [ha]
      exact sigReply_hash (command_hash (by rw [hc]; rcases hch with rfl | rfl <;> simp)) _ _

end Tezos
