import Verif.Devel
import Verif.Props.Watermarks
import Verif.Sessions
/-
The development build.
-/
namespace Tezos
open Spec

/-! ### Histories -/

/-- An event in a history of a device with the development build. -/
structure DMoment where
  st : DDev
  env : Env
  ev : Event
  out : Output

/-- The state after the event. -/
def DMoment.next (cfg : Config) (m : DMoment) : DDev := (m.st.step cfg m.env m.ev).1

/-- The history of a run. -/
def DDev.trace (cfg : Config) (s : DDev) : List (Env × Event) → List DMoment
  | [] => []
  | (env, ev) :: es => ⟨s, env, ev, (s.step cfg env ev).2⟩ :: (s.step cfg env ev).1.trace cfg es

theorem DDev.trace_split {cfg : Config} {s : DDev} {es : List (Env × Event)} {a b : List DMoment} {m : DMoment}
    (h : s.trace cfg es = a ++ m :: b) :
    ∃ ea eb, es = ea ++ (m.env, m.ev) :: eb ∧ ea.length = a.length ∧ a = s.trace cfg ea ∧ m.st = (s.run cfg ea).1 ∧
      m.out = (m.st.step cfg m.env m.ev).2 ∧ b = (m.next cfg).trace cfg eb := by
  induction a generalizing s es with
  | nil =>
    cases es with
    | nil => simp [DDev.trace] at h
    | cons x xs =>
      simp only [DDev.trace, List.nil_append, List.cons.injEq] at h
      obtain ⟨rfl, rfl⟩ := h
      exact ⟨[], xs, rfl, rfl, rfl, rfl, rfl, rfl⟩
  | cons y ys ih =>
    cases es with
    | nil => simp [DDev.trace] at h
    | cons x xs =>
      simp only [DDev.trace, List.cons_append, List.cons.injEq] at h
      obtain ⟨rfl, h⟩ := h
      obtain ⟨ea, eb, rfl, hl, rfl, hst, hout, hb⟩ := ih h
      exact ⟨x :: ea, eb, rfl, by simp [hl], rfl, hst, hout, hb⟩

/-! ### What the instructions of this build leave alone -/

/-- The four records in flash are the same, and the pending review of the app is the same or gone. -/
structure KeepsRecords (a b : Dev) : Prop where
  main : b.main = a.main
  test : b.test = a.test
  chain : b.chain = a.chain
  key : b.key = a.key
  view : b.view = a.view ∨ b.view = none

theorem KeepsRecords.refl (a : Dev) : KeepsRecords a a := ⟨rfl, rfl, rfl, rfl, .inl rfl⟩

theorem KeepsRecords.trans {a b c : Dev} (h : KeepsRecords a b) (k : KeepsRecords b c) : KeepsRecords a c :=
  ⟨k.main.trans h.main, k.test.trans h.test, k.chain.trans h.chain, k.key.trans h.key, by
    rcases k.view with e | e
    · rcases h.view with e' | e'
      · exact .inl (e.trans e')
      · exact .inr (e.trans e')
    · exact .inr e⟩

theorem DView.reject_keeps (v : DView) (s : DDev) : KeepsRecords s.app (v.reject s).app := by
  cases v <;> exact ⟨rfl, rfl, rfl, rfl, .inl rfl⟩

theorem DView.accept_keeps (env : Env) (v : DView) (s : DDev) : KeepsRecords s.app (v.accept env s).st.app := by
  cases v with
  | blind d m =>
    unfold DView.accept
    dsimp only
    repeat' split
    all_goals exact ⟨rfl, rfl, rfl, rfl, .inl rfl⟩
  | _ => exact ⟨rfl, rfl, rfl, rfl, .inl rfl⟩

theorem DDev.show_keeps (v : DView) (s : DDev) : KeepsRecords s.app (s.show v).st.app := by
  unfold DDev.show
  dsimp only
  split
  case h_3 =>
    have h := v.reject_keeps { s with app := { s.app with view := none }, review := some v }
    exact ⟨h.main, h.test, h.chain, h.key, .inr (by rcases h.view with e | e <;> exact e)⟩
  all_goals exact ⟨rfl, rfl, rfl, rfl, .inr rfl⟩

theorem DDev.cmdUpload_keeps {env : Env} {acc : Accessor} {p1 p2 : UInt8} {payload : Option Bytes}
    {finish : UInt8 → Bytes → Bytes → DDev → DRes}
    (hf : ∀ q2 first data s, KeepsRecords s.app (finish q2 first data s).st.app) (s : DDev) :
    KeepsRecords s.app (s.cmdUpload env acc p1 p2 payload finish).st.app := by
  unfold DDev.cmdUpload
  dsimp only
  split
  case h_5 q2 first data ref hr =>
    have h := hf q2 first data
      { s with app := { s.app with upl := (s.app.upl.upload env.copyF env.appendF acc p1 p2 payload).1 } }
    exact ⟨h.main, h.test, h.chain, h.key, h.view⟩
  all_goals exact ⟨rfl, rfl, rfl, rfl, .inl rfl⟩

theorem DDev.exec_keeps (env : Env) (c : DCmd) (buf : Bytes) (s : DDev) :
    KeepsRecords s.app (s.exec env c buf).st.app := by
  cases c with
  | hash =>
    refine DDev.cmdUpload_keeps (fun q2 first data s => ?_) s
    repeat' split
    all_goals exact .refl _
  | except =>
    simp only [DDev.exec, DDev.cmdExcept]
    split <;> exact .refl _
  | echo =>
    simp only [DDev.exec, DDev.cmdEcho]
    repeat' split
    all_goals first | exact .refl _ | exact DDev.show_keeps _ _
  | blindSign =>
    refine DDev.cmdUpload_keeps (fun q2 first data s => ?_) s
    unfold DDev.blindSign
    dsimp only
    repeat' split
    all_goals first
      | exact .refl _
      | exact DDev.show_keeps _ { s with path := some _ }
  | debug =>
    simp only [DDev.exec, DDev.cmdDebug]
    split
    · exact .refl _
    · split
      case h_4 =>
        split
        case h_4 =>
          refine KeepsRecords.trans ?_ (DDev.show_keeps DView.debug _)
          exact ⟨rfl, rfl, rfl, rfl, .inl rfl⟩
        all_goals exact ⟨rfl, rfl, rfl, rfl, .inl rfl⟩
      all_goals exact ⟨rfl, rfl, rfl, rfl, .inl rfl⟩

theorem DRes.deliver_keeps (r : DRes) : KeepsRecords r.st.app r.deliver.1.app := by
  unfold DRes.deliver
  split <;> exact ⟨rfl, rfl, rfl, rfl, .inl rfl⟩

theorem DDev.approve_keeps (env : Env) (v : DView) (s : DDev) : KeepsRecords s.app (s.approve env v).1.app := by
  unfold DDev.approve
  have h := (v.accept_keeps env (s.withZui { s.app.zui with screen := .idle })).trans
    (DRes.deliver_keeps (v.accept env (s.withZui { s.app.zui with screen := .idle })))
  exact ⟨h.main, h.test, h.chain, h.key, h.view⟩

theorem DDev.reject_keeps (v : DView) (s : DDev) : KeepsRecords s.app (s.reject v).1.app := by
  have h := v.reject_keeps (s.withZui { s.app.zui with screen := .idle })
  exact ⟨h.main, h.test, h.chain, h.key, h.view⟩

theorem DDev.onError_keeps (c : Bool) (f : XError → XError) (s : DDev) : KeepsRecords s.app (s.onError c f).1.app := by
  unfold DDev.onError
  split <;> exact ⟨rfl, rfl, rfl, rfl, .inl rfl⟩

theorem DDev.redraw_keeps (v : Option DView) (u : Upd) (s : DDev) : KeepsRecords s.app (s.redraw v u).1.app := by
  cases u with
  | rejected z =>
    cases v with
    | none => exact ⟨rfl, rfl, rfl, rfl, .inl rfl⟩
    | some v =>
      have h := (s.withZui z).reject_keeps v
      exact ⟨h.main, h.test, h.chain, h.key, h.view⟩
  | _ => exact ⟨rfl, rfl, rfl, rfl, .inl rfl⟩

theorem DDev.pressBoth_keeps (env : Env) (v : DView) (s : DDev) : KeepsRecords s.app (s.pressBoth env v).1.app := by
  unfold DDev.pressBoth
  dsimp only
  have h : KeepsRecords s.app (s.choose env v).1.app := by
    unfold DDev.choose
    split
    · exact s.approve_keeps env v
    · exact s.reject_keeps v
    · exact .refl _
  split
  · exact h.trans (DDev.redraw_keeps _ _ _)
  · exact h

theorem DDev.button_keeps (env : Env) (v : DView) (ev : Event) (s : DDev) :
    KeepsRecords s.app (s.button env v ev).1.app := by
  unfold DDev.button
  split
  · exact DDev.redraw_keeps _ _ _
  · exact DDev.redraw_keeps _ _ _
  · exact DDev.pressBoth_keeps _ _ _
  · exact DDev.onError_keeps _ _ _
  · exact DDev.onError_keeps _ _ _
  · exact DDev.onError_keeps _ _ _
  · exact .refl _

/-! ### Signatures of this build -/

theorem DDev.show_sig (v : DView) (s : DDev) : (s.show v).sig = none := by
  unfold DDev.show
  dsimp only
  split <;> rfl

theorem DDev.cmdUpload_sig {env : Env} {acc : Accessor} {p1 p2 : UInt8} {payload : Option Bytes}
    {finish : UInt8 → Bytes → Bytes → DDev → DRes} (hf : ∀ q2 first data s, (finish q2 first data s).sig = none)
    (s : DDev) : (s.cmdUpload env acc p1 p2 payload finish).sig = none := by
  unfold DDev.cmdUpload
  dsimp only
  split
  case h_5 => exact hf _ _ _ _
  all_goals rfl

/-- Requests of this build are not answered with a signature. -/
theorem DDev.exec_sig (env : Env) (c : DCmd) (buf : Bytes) (s : DDev) : (s.exec env c buf).sig = none := by
  cases c with
  | hash =>
    refine DDev.cmdUpload_sig (fun q2 first data s => ?_) s
    repeat' split
    all_goals rfl
  | except =>
    simp only [DDev.exec, DDev.cmdExcept]
    split <;> rfl
  | echo =>
    simp only [DDev.exec, DDev.cmdEcho]
    repeat' split
    all_goals first | rfl | exact DDev.show_sig _ _
  | blindSign =>
    refine DDev.cmdUpload_sig (fun q2 first data s => ?_) s
    unfold DDev.blindSign
    repeat' split
    all_goals first | rfl | exact DDev.show_sig _ _
  | debug =>
    simp only [DDev.exec, DDev.cmdDebug]
    repeat' split
    all_goals first | rfl | exact DDev.show_sig _ _

theorem DRes.deliver_sig_none {r : DRes} (h : r.sig = none) : r.deliver.2.sig = none := by
  unfold DRes.deliver
  split <;> first | exact h | rfl

theorem DDev.redraw_sig (v : Option DView) (u : Upd) (s : DDev) : (s.redraw v u).2.sig = none := by
  cases u <;> first | rfl | (cases v <;> rfl)

theorem DDev.onError_sig (c : Bool) (f : XError → XError) (s : DDev) : (s.onError c f).2.sig = none := by
  unfold DDev.onError
  split <;> rfl

/-- A signature on a button comes from the review of a digest, by pressing both buttons at the approval. -/
theorem DDev.button_sig {env : Env} {v : DView} {ev : Event} {s : DDev} {x : SigRec}
    (h : (s.button env v ev).2.sig = some x) : ev = .both ∧ s.app.zui.chosen = .approve ∧
      (∃ t a b, s.app.zui.screen = .review t a b) ∧ ∃ path curve sig, v = .blind x.digest x.msg ∧
        s.path = some (path, curve) ∧ env.cr.sign curve path x.digest = some sig ∧ x = ⟨curve, path, x.digest, x.msg, sig⟩ ∧
        (s.button env v ev).2.reply = some (sigReply true x.digest sig ++ statusWord .success) := by
  unfold DDev.button at h ⊢
  split at h
  · rw [DDev.redraw_sig] at h; cases h
  · rw [DDev.redraw_sig] at h; cases h
  · rename_i t a b heq
    have hp : (s.approve env v).2.sig = some x ∧ s.app.zui.chosen = .approve ∧
        ((s.approve env v).2.reply ≠ none → (s.pressBoth env v).2.reply = (s.approve env v).2.reply) := by
      unfold DDev.pressBoth DDev.choose at h ⊢
      dsimp only at h ⊢
      cases hc : s.app.zui.chosen with
      | approve =>
        simp only [hc] at h ⊢
        split at h <;> rename_i hj
        · rw [if_pos hj]
          refine ⟨h, trivial, fun hr => ?_⟩
          cases hrr : (s.approve env v).2.reply with
          | none => exact absurd hrr hr
          | some r => rfl
        · rw [if_neg hj]
          exact ⟨h, trivial, fun _ => rfl⟩
      | reject =>
        simp only [hc] at h
        split at h <;> cases h
      | nothing =>
        simp only [hc] at h
        split at h <;> cases h
    obtain ⟨h1, h2, h3⟩ := hp
    refine ⟨rfl, h2, ⟨t, a, b, heq⟩, ?_⟩
    unfold DDev.approve at h1 h3
    dsimp only at h1 h3
    cases v with
    | blind d m =>
      unfold DView.accept at h1 h3
      dsimp only at h1 h3
      cases hpath : s.path with
      | none => simp [DDev.withZui, hpath, DDev.fail, DRes.deliver] at h1
      | some pc =>
        obtain ⟨path, curve⟩ := pc
        simp only [DDev.withZui, hpath] at h1 h3
        cases hsg : env.cr.sign curve path d with
        | none => simp [hsg, DDev.fail, DRes.deliver] at h1
        | some sig =>
          simp only [hsg, DRes.deliver, Option.some.injEq] at h1 h3
          subst h1
          exact ⟨path, curve, sig, rfl, rfl, hsg, rfl, h3 (by simp)⟩
    | debug => simp [DView.accept, DDev.ok, DRes.deliver] at h1
    | echo l1 l2 => simp [DView.accept, DDev.ok, DRes.deliver] at h1
  · rw [DDev.onError_sig] at h; cases h
  · rw [DDev.onError_sig] at h; cases h
  · rw [DDev.onError_sig] at h; cases h
  · cases h

/-! ### Every event is one of the app or leaves the records alone -/

theorem DDev.ofApp_deliver (s : DDev) (r : Res) :
    (s.ofApp r).deliver.1.app = r.deliver.1 ∧ (s.ofApp r).deliver.2 = r.deliver.2 := by
  obtain ⟨st, out, sig⟩ := r
  cases out <;> exact ⟨rfl, rfl⟩

/-- How an event acts on the app. -/
inductive DDev.Acts (cfg : Config) (env : Env) (ev : Event) (s : DDev) : Prop where
  | app (ha : (s.step cfg env ev).1.app = (s.app.step cfg env ev).1)
      (ho : (s.step cfg env ev).2 = (s.app.step cfg env ev).2)
  | own (hk : KeepsRecords s.app (s.step cfg env ev).1.app)
      (hs : ∀ x, (s.step cfg env ev).2.sig = some x → ∃ v, s.review = some v ∧ s.app.running = true ∧
        s.step cfg env ev = s.button env v ev)

theorem DDev.acts (cfg : Config) (env : Env) (ev : Event) (s : DDev) : DDev.Acts cfg env ev s := by
  have hb : ∀ e : Event, (e = .left ∨ e = .right ∨ e = .both) → DDev.Acts cfg env e s := by
    intro e he
    have hstep : s.step cfg env e = match s.review with
        | none => s.appStep cfg env e
        | some v => if s.app.running then s.button env v e else (s, .quiet) := by
      rcases he with rfl | rfl | rfl <;> rfl
    cases hr : s.review with
    | none =>
      simp only [hr] at hstep
      exact .app (by rw [hstep]; rfl) (by rw [hstep]; rfl)
    | some v =>
      simp only [hr] at hstep
      by_cases hrun : s.app.running = true
      · rw [if_pos hrun] at hstep
        exact .own (by rw [hstep]; exact s.button_keeps env v e) fun x _ => ⟨v, hr, hrun, hstep⟩
      · rw [if_neg hrun] at hstep
        exact .own (by rw [hstep]; exact .refl _) fun x hx => by rw [hstep] at hx; cases hx
  cases ev with
  | relaunch => exact .app rfl rfl
  | expert => exact .app rfl rfl
  | left => exact hb _ (.inl rfl)
  | right => exact hb _ (.inr (.inl rfl))
  | both => exact hb _ (.inr (.inr rfl))
  | apdu buf rx =>
    by_cases hrun : s.app.running = true
    case neg => refine .app ?_ ?_ <;> simp [DDev.step, Dev.step, hrun]
    have hstep : s.step cfg env (.apdu buf rx) = (s.dispatch cfg env buf rx).deliver := by
      simp only [DDev.step, hrun, if_true]
    have happ : s.app.step cfg env (.apdu buf rx) = (s.app.dispatch cfg env buf rx).deliver := by
      simp only [Dev.step, hrun, if_true]
    by_cases h1 : buf.length < 5 ∨ rx < 5 ∨ buf.length < rx
    · refine .app ?_ ?_ <;> rw [hstep, happ] <;> simp only [DDev.dispatch, Dev.dispatch, if_pos h1] <;> rfl
    by_cases h2 : buf.getD 0 0 ≠ 0x80
    · refine .app ?_ ?_ <;> rw [hstep, happ] <;>
        simp only [DDev.dispatch, Dev.dispatch, if_neg h1, if_pos h2] <;> rfl
    have hd : s.dispatch cfg env buf rx = match develCommand cfg.build (buf.getD 1 0) with
        | some c => s.exec env c buf
        | none => s.ofApp (s.app.dispatch cfg env buf rx) := by
      simp only [DDev.dispatch, if_neg h1, if_neg h2]
      rfl
    rw [hd] at hstep
    cases hc : develCommand cfg.build (buf.getD 1 0) with
    | none =>
      simp only [hc] at hstep
      have := s.ofApp_deliver (s.app.dispatch cfg env buf rx)
      exact .app (by rw [hstep, happ, this.1]) (by rw [hstep, happ, this.2])
    | some c =>
      simp only [hc] at hstep
      refine .own (by rw [hstep]; exact (s.exec_keeps env c buf).trans (DRes.deliver_keeps _)) fun x hx => ?_
      rw [hstep, DRes.deliver_sig_none (s.exec_sig env c buf)] at hx
      cases hx

/-! ### C89 -/

/-- The instruction codes documented for the two builds. -/
def documentedCodes : Build → List UInt8
  | .baking => [0x00, 0x01, 0x02, 0x03, 0x04, 0x06, 0x07, 0x08, 0x09, 0x0A, 0x0B, 0x0C, 0x0D, 0x0E, 0x0F, 0x10, 0x11, 0x12,
      0xA1, 0xA7, 0xAC, 0xAD, 0xAF]
  | .wallet => [0x00, 0x02, 0x03, 0x04, 0x05, 0x09, 0x0F, 0x10, 0x11, 0x12]

/-- The event is not a request with an instruction of the development build. -/
def Event.Documented (b : Build) : Event → Prop
  | .apdu buf rx => 5 ≤ rx → rx ≤ buf.length → buf[0]? = some 0x80 → ∃ ins ∈ documentedCodes b, buf[1]? = some ins
  | _ => True

theorem develCommand_none (b : Build) (ins : UInt8) : develCommand b ins = none ↔ ins ∈ documentedCodes b := by
  revert ins
  apply forall_u8
  cases b <;> decide +kernel

theorem DDev.step_documented {cfg : Config} {env : Env} {ev : Event} {s : DDev} (hr : s.review = none)
    (hd : ev.Documented cfg.build) : (s.step cfg env ev).1.app = (s.app.step cfg env ev).1 ∧
      (s.step cfg env ev).2 = (s.app.step cfg env ev).2 ∧ (s.step cfg env ev).1.review = none := by
  cases ev with
  | relaunch => exact ⟨rfl, rfl, rfl⟩
  | expert => exact ⟨rfl, rfl, hr⟩
  | left => simp only [DDev.step, hr]; exact ⟨rfl, rfl, hr⟩
  | right => simp only [DDev.step, hr]; exact ⟨rfl, rfl, hr⟩
  | both => simp only [DDev.step, hr]; exact ⟨rfl, rfl, hr⟩
  | apdu buf rx =>
    by_cases hrun : s.app.running = true
    case neg => simp [DDev.step, Dev.step, hrun, hr]
    simp only [DDev.step, Dev.step, hrun, if_true]
    by_cases h1 : buf.length < 5 ∨ rx < 5 ∨ buf.length < rx
    · simp only [DDev.dispatch, Dev.dispatch, if_pos h1]
      exact ⟨rfl, rfl, hr⟩
    by_cases h2 : buf.getD 0 0 ≠ 0x80
    · simp only [DDev.dispatch, Dev.dispatch, if_neg h1, if_pos h2]
      exact ⟨rfl, rfl, hr⟩
    have hlen : 5 ≤ buf.length := by omega
    have hget : ∀ i, i < 5 → buf[i]? = some (buf.getD i 0) := by
      intro i hi
      rw [List.getD_eq_getElem?_getD, List.getElem?_eq_getElem (by omega)]
      rfl
    obtain ⟨ins, hins, hi⟩ := hd (by omega) (by omega) (by rw [hget 0 (by omega)]; simpa using h2)
    rw [hget 1 (by omega)] at hi
    cases hi
    have hc := (develCommand_none cfg.build _).mpr hins
    have he : s.dispatch cfg env buf rx = s.ofApp (s.app.dispatch cfg env buf rx) := by
      simp only [DDev.dispatch, if_neg h1, if_neg h2, hc]
    rw [he]
    refine ⟨(s.ofApp_deliver _).1, (s.ofApp_deliver _).2, ?_⟩
    generalize s.app.dispatch cfg env buf rx = r
    obtain ⟨st, out, sig⟩ := r
    cases out <;> first | exact hr | rfl

theorem DDev.run_documented {cfg : Config} {es : List (Env × Event)} (hd : ∀ e ∈ es, e.2.Documented cfg.build) :
    ∀ s : DDev, s.review = none → (s.run cfg es).2 = (s.app.run cfg es).2 := by
  induction es with
  | nil => intro s _; rfl
  | cons x xs ih =>
    intro s hr
    obtain ⟨h1, h2, h3⟩ := DDev.step_documented (env := x.1) hr (hd x (by simp))
    have := ih (fun e he => hd e (by simp [he])) _ h3
    simp only [DDev.run, Dev.run, h2, this, h1]

/-- C89: a host that keeps to the documented instructions cannot tell a development build from the app: all answers are
the same, and all signatures. -/
theorem C89_documented (cfg : Config) (new : NewDevice) (es : List (Env × Event))
    (hd : ∀ e ∈ es, e.2.Documented cfg.build) :
    ((DDev.factory new).run cfg es).2 = ((Dev.factory new).run cfg es).2 :=
  DDev.run_documented hd _ rfl

/-- C89: a request with an instruction of the development build, or a button pressed on one of its reviews, leaves the
watermarks, the chain and the authorized key alone; and no such request is answered with a signature. -/
theorem C89_records (cfg : Config) (s : DDev) (env : Env) (ev : Event)
    (h : (∃ buf rx ins, ev = .apdu buf rx ∧ 5 ≤ rx ∧ rx ≤ buf.length ∧ buf[0]? = some 0x80 ∧ buf[1]? = some ins ∧
        ins ∉ documentedCodes cfg.build) ∨ (s.review ≠ none ∧ (ev = .left ∨ ev = .right ∨ ev = .both))) :
    (s.step cfg env ev).1.app.main = s.app.main ∧ (s.step cfg env ev).1.app.test = s.app.test ∧
      (s.step cfg env ev).1.app.chain = s.app.chain ∧ (s.step cfg env ev).1.app.key = s.app.key ∧
      ∀ buf rx, ev = .apdu buf rx → (s.step cfg env ev).2.sig = none := by
  rcases h with ⟨buf, rx, ins, rfl, h1, h2, h3, h4, h5⟩ | ⟨hr, he⟩
  · by_cases hrun : s.app.running = true
    case neg => simp [DDev.step, hrun, Output.quiet]
    have hc : ∃ c, develCommand cfg.build (buf.getD 1 0) = some c := by
      cases hc : develCommand cfg.build (buf.getD 1 0) with
      | some c => exact ⟨c, rfl⟩
      | none =>
        rw [List.getD_eq_getElem?_getD, h4] at hc
        exact absurd ((develCommand_none _ _).mp hc) h5
    obtain ⟨c, hc⟩ := hc
    have hstep : s.step cfg env (.apdu buf rx) = (s.exec env c buf).deliver := by
      simp only [DDev.step, hrun, if_true, DDev.dispatch]
      rw [if_neg (by omega), if_neg (by rw [List.getD_eq_getElem?_getD, h3]; simp), hc]
    rw [hstep]
    have hk := (s.exec_keeps env c buf).trans (DRes.deliver_keeps _)
    exact ⟨hk.main, hk.test, hk.chain, hk.key, fun _ _ _ => DRes.deliver_sig_none (s.exec_sig env c buf)⟩
  · cases hv : s.review with
    | none => exact absurd hv hr
    | some v =>
      have hstep : s.step cfg env ev = if s.app.running then s.button env v ev else (s, .quiet) := by
        rcases he with rfl | rfl | rfl <;> simp only [DDev.step, hv]
      rw [hstep]
      split
      · have hk := s.button_keeps env v ev
        exact ⟨hk.main, hk.test, hk.chain, hk.key, fun _ _ h => by rcases he with rfl | rfl | rfl <;> cases h⟩
      · exact ⟨rfl, rfl, rfl, rfl, fun _ _ h => by rcases he with rfl | rfl | rfl <;> cases h⟩

/-! #### The order of consensus signatures -/

theorem KeepsRecords.ok {a b : Dev} (h : KeepsRecords a b) (ha : a.Ok) : b.Ok := by
  intro v hv
  rcases h.view with e | e
  · exact ha v (by rw [← e]; exact hv)
  · rw [e] at hv; cases hv

theorem DDev.step_ok {cfg : Config} {env : Env} {ev : Event} {s : DDev} (h : s.app.Ok) :
    (s.step cfg env ev).1.app.Ok := by
  cases s.acts cfg env ev with
  | app ha _ => rw [ha]; exact h.step
  | own hk _ => exact hk.ok h

theorem DDev.run_ok {cfg : Config} {s : DDev} {es : List (Env × Event)} (h : s.app.Ok) : (s.run cfg es).1.app.Ok := by
  induction es generalizing s with
  | nil => exact h
  | cons x xs ih => exact ih (DDev.step_ok h)

theorem DDev.run_main {cfg : Config} {s : DDev} {es : List (Env × Event)} {n : Nat} {c : Cell}
    (hok : s.app.Ok) (h : s.app.main.Holds n c) (he : ∀ e ∈ es, e.1.mainF.Sound) (hn : n + es.length < 2 ^ 64) :
    ∃ c', (s.run cfg es).1.app.main.Holds (n + es.length) c' := by
  induction es generalizing s n c with
  | nil => exact ⟨c, h⟩
  | cons x xs ih =>
    have hstep : ∃ c', (s.step cfg x.1 x.2).1.app.main.Holds (n + 1) c' := by
      cases s.acts cfg x.1 x.2 with
      | app ha _ =>
        obtain ⟨c', h1, _⟩ := s.app.step_main (cfg := cfg) (ev := x.2) hok h (he x (by simp)) (by simp at hn; omega)
        exact ⟨c', by rw [ha]; exact h1⟩
      | own hk _ => exact ⟨c, by rw [hk.main]; exact h.mono (by omega)⟩
    obtain ⟨c', h1⟩ := hstep
    obtain ⟨c'', h2⟩ := ih (DDev.step_ok hok) h1 (fun e hh => he e (by simp [hh])) (by simp at hn ⊢; omega)
    exact ⟨c'', by simpa [DDev.run, Nat.add_assoc, Nat.add_comm 1] using h2⟩

theorem DDev.run_above {cfg : Config} {s : DDev} {es : List (Env × Event)} {n : Nat} {c : Cell} {it : Item}
    (hok : s.app.Ok) (h : s.app.main.Holds n c) (ha : c.Above it) (he : ∀ e ∈ es, e.1.mainF.Sound)
    (hn : n + es.length < 2 ^ 64) (ho : ∀ m ∈ s.trace cfg es, ¬ Overrides cfg m.st.app m.ev) :
    ∃ c', (s.run cfg es).1.app.main.Holds (n + es.length) c' ∧ c'.Above it := by
  induction es generalizing s n c with
  | nil => exact ⟨c, h, ha⟩
  | cons x xs ih =>
    have hstep : ∃ c', (s.step cfg x.1 x.2).1.app.main.Holds (n + 1) c' ∧ c'.Above it := by
      cases s.acts cfg x.1 x.2 with
      | app happ _ =>
        obtain ⟨c', h1, hm⟩ := s.app.step_main (cfg := cfg) (ev := x.2) hok h (he x (by simp)) (by simp at hn; omega)
        exact ⟨c', by rw [happ]; exact h1, ha.step hm (ho ⟨s, x.1, x.2, (s.step cfg x.1 x.2).2⟩ (by simp [DDev.trace]))⟩
      | own hk _ => exact ⟨c, by rw [hk.main]; exact h.mono (by omega), ha⟩
    obtain ⟨c', h1, ha'⟩ := hstep
    obtain ⟨c'', h2, h3⟩ := ih (DDev.step_ok hok) h1 ha' (fun e hh => he e (by simp [hh])) (by simp at hn ⊢; omega)
      (fun m hm => ho m (by simp [DDev.trace, hm]))
    exact ⟨c'', by simpa [DDev.run, Nat.add_assoc, Nat.add_comm 1] using h2, h3⟩

/-- A consensus signature that answers a request. -/
theorem DDev.consensus_moment {cfg : Config} {s : DDev} {env : Env} {buf : Bytes} {rx n : Nat} {c : Cell} {x : SigRec}
    (hok : s.app.Ok) (h : s.app.main.Holds n c) (hf : env.mainF.Sound) (hn : n + 1 < 2 ^ 64)
    (hx : (s.step cfg env (.apdu buf rx)).2.sig = some x) (hcm : isConsensusMagic x.msg = true) :
    ∃ b it, c = .val b ∧ consensusItem x.msg = some it ∧ it.level < 2 ^ 31 ∧ Item.lt (WaterMark.decode b).item it ∧
      env.mainF = .done ∧
      (s.step cfg env (.apdu buf rx)).1.app.main.Holds (n + 1) (.val (WaterMark.ofItem it).encode) := by
  cases s.acts cfg env (.apdu buf rx) with
  | app ha ho =>
    rw [ho] at hx
    rw [ha]
    exact Tezos.consensus_moment hok h hf hn hx hcm
  | own hk hs =>
    obtain ⟨v, _, _, hb⟩ := hs x hx
    rw [hb] at hx
    have := (DDev.button_sig hx).1
    cases this

/-- C89: blind signing aside, the development build signs blocks, preendorsements and endorsements in strictly increasing
order as C01 says, whatever its own instructions are used for in between: for any two consensus signatures that answer
requests, with no reset and no approved setup in between, the later one is about a strictly higher item. -/
theorem C89_consensus (cfg : Config) (new : NewDevice) (es : List (Env × Event)) (hes : ∀ e ∈ es, e.1.mainF.Sound)
    (hlen : es.length < 2 ^ 64) (a b c : List DMoment) (m1 m2 : DMoment)
    (h : (DDev.factory new).trace cfg es = a ++ m1 :: (b ++ m2 :: c)) (ho : ∀ m ∈ b, ¬ Overrides cfg m.st.app m.ev)
    (q1 : ∃ buf rx, m1.ev = .apdu buf rx) (q2 : ∃ buf rx, m2.ev = .apdu buf rx) (x1 x2 : SigRec)
    (h1 : m1.out.sig = some x1) (h2 : m2.out.sig = some x2)
    (c1 : isConsensusMagic x1.msg = true) (c2 : isConsensusMagic x2.msg = true) :
    ∃ i1 i2, consensusItem x1.msg = some i1 ∧ consensusItem x2.msg = some i2 ∧ Item.lt i1 i2 := by
  obtain ⟨buf1, rx1, q1⟩ := q1
  obtain ⟨buf2, rx2, q2⟩ := q2
  obtain ⟨ea, eb, rfl, hla, rfl, hst1, ho1, hrest⟩ := DDev.trace_split h
  obtain ⟨ec, ed, rfl, hlb, rfl, hst2, ho2, _⟩ := DDev.trace_split hrest.symm
  simp only [List.length_append, List.length_cons] at hlen
  have hok1 : m1.st.app.Ok := by rw [hst1]; exact DDev.run_ok (s := DDev.factory new) (Dev.Ok.factory new)
  obtain ⟨cell1, hc1⟩ := DDev.run_main (cfg := cfg) (s := DDev.factory new) (es := ea) (n := 0)
    (Dev.Ok.factory new) (Store.Holds.fresh (by omega)) (fun e he => hes e (by simp [he])) (by omega)
  rw [← hst1, Nat.zero_add] at hc1
  rw [ho1, q1] at h1
  obtain ⟨b1, i1, _, hi1, _, _, _, hc1'⟩ :=
    DDev.consensus_moment hok1 hc1 (hes (m1.env, m1.ev) (by simp)) (by omega) h1 c1
  have hn : m1.next cfg = (m1.st.step cfg m1.env (.apdu buf1 rx1)).1 := by rw [DMoment.next, q1]
  rw [← hn] at hc1'
  have hok1' : (m1.next cfg).app.Ok := DDev.step_ok hok1
  obtain ⟨cell2, hc2, ha2⟩ := DDev.run_above (cfg := cfg) (es := ec) hok1' hc1' (Cell.Above.ofItem hi1)
    (fun e he => hes e (by simp [he])) (by omega) ho
  rw [← hst2] at hc2
  have hok2 : m2.st.app.Ok := by rw [hst2]; exact DDev.run_ok hok1'
  rw [ho2, q2] at h2
  obtain ⟨b2, i2, hb2, hi2, _, hlt, _, _⟩ :=
    DDev.consensus_moment hok2 hc2 (hes (m2.env, m2.ev) (by simp)) (by omega) h2 c2
  exact ⟨i1, i2, hi1, hi2, ha2.lt hb2 hlt⟩

/-! ### Examples -/

section
open Demo

/-- Another Tenderbake endorsement of the same level and round. -/
def Demo.tbEndorsement' (level round : UInt32) : Bytes :=
  [0x13] ++ mainnet ++ List.replicate 32 8 ++ [21, 0, 1] ++ be32 level ++ be32 round ++ List.replicate 32 9

/-- Blind signing with the key `path`: two packets, two pages, approval. -/
def Demo.blind (m : Bytes) (path : Bytes := keyPath) : List (Env × Event) :=
  ok [apdu 0xF3 0 0 path, apdu 0xF3 0x81 0 m, .right, .right, .both]

/-- Messages signed in a run of a development build, with the position of the event. -/
def Demo.develSignedAt (cfg : Config) (es : List (Env × Event)) (i : Nat) : Option Bytes :=
  (((DDev.factory ⟨.small, []⟩).trace cfg es)[i]?.bind fun m => m.out.sig).map SigRec.msg

/-- A history with documented requests only, in which a message is signed. -/
example : (∀ e ∈ setup 1 ++ sign (tbEndorsement 5 0), e.2.Documented bakingApp.build) ∧
    develSignedAt bakingApp (setup 1 ++ sign (tbEndorsement 5 0)) 9 = some (tbEndorsement 5 0) := by
  refine ⟨?_, by decide +kernel⟩
  intro e he
  have : ∀ ev : Event, (match ev with
      | .apdu buf _ => decide (∃ i ∈ documentedCodes bakingApp.build, buf[1]? = some i)
      | _ => true) = true → ev.Documented bakingApp.build := by
    intro ev h
    cases ev with
    | apdu buf rx =>
      simp only [decide_eq_true_eq] at h
      exact fun _ _ _ => h
    | _ => trivial
  refine this _ ?_
  revert e
  decide +kernel

/-- Two endorsements are signed on request in a development build, the device having signed another thing blindly and
answered a request for a hash in between; the same endorsement again is refused. -/
example : let es := setup 1 ++ sign (tbEndorsement 5 0) ++ blind [1, 2, 3] ++ ok [apdu 0xF0 0x01 0 [1]] ++
      sign (tbEndorsement 5 0) ++ sign (tbEndorsement 6 0)
    develSignedAt bakingApp es 9 = some (tbEndorsement 5 0) ∧ develSignedAt bakingApp es 14 = some [1, 2, 3] ∧
    develSignedAt bakingApp es 17 = none ∧ develSignedAt bakingApp es 19 = some (tbEndorsement 6 0) := by
  decide +kernel

/-- `C89_consensus` is about signatures given on a request. The user can sign any digest blindly: this baker signs two
endorsements of one level and round, the second after seeing its hash. -/
theorem C89_blind_signs_again :
    ∃ es : List (Env × Event), ∃ m1 m2 : Bytes, develSignedAt bakingApp es 9 = some m1 ∧
      develSignedAt bakingApp es 14 = some m2 ∧ m1 ≠ m2 ∧ isConsensusMagic m1 = true ∧ isConsensusMagic m2 = true ∧
      (consensusItem m1).isSome = true ∧ consensusItem m1 = consensusItem m2 ∧
      (∀ m ∈ (((DDev.factory ⟨.small, []⟩).trace bakingApp es).drop 10), ¬ Overrides bakingApp m.st.app m.ev) := by
  refine ⟨setup 1 ++ sign (tbEndorsement 5 0) ++ blind (tbEndorsement' 5 0), tbEndorsement 5 0, tbEndorsement' 5 0,
    ?_, ?_, ?_, ?_, ?_, ?_, ?_, ?_⟩
  all_goals decide +kernel

end

end Tezos
