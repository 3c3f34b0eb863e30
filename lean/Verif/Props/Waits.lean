import Verif.Props.Board
import Verif.Props.Baker
import Verif.Spec.Waits
/-
C105: a host that waits for its answers. Several properties fail only because a host can send commands during a review
(C42, C43, C80, C98). They hold in full, on the board with its exchange buffer, for hosts that wait; and every program
written with the client library is such a host.
-/
namespace Tezos
open Spec

/-- Who acts. -/
def Event.act : Event → Act
  | .apdu _ _ => .command
  | .relaunch => .start
  | _ => .user

/-- Who acts. -/
def Input.act : Input → Act
  | .command _ => .command
  | .relaunch _ => .start
  | _ => .user

def Moment.beat (m : Moment) : Beat := ⟨m.ev.act, m.out.reply.isSome⟩

def Board.At.beat (a : Board.At) : Beat := ⟨a.input.act, a.out.reply.isSome⟩

/-- A moment of the board as a moment of the app. -/
def Board.At.moment (a : Board.At) : Moment := ⟨a.board.dev, a.env, a.board.event a.input, a.out⟩

theorem Board.At.moment_beat (a : Board.At) : a.moment.beat = a.beat := by
  obtain ⟨x, env, i, o⟩ := a
  cases i <;> rfl

/-! ### Waiting for answers keeps commands out of reviews -/

/-- The host is owed an answer while a review is pending. -/
def Dev.Owes (s : Dev) (owed : Bool) : Prop := s.running = true → s.view ≠ none → owed = true

theorem Dev.Owes.step {cfg : Config} {env : Env} {ev : Event} {s : Dev} {owed : Bool} (h : s.Owes owed)
    (hw : ev.act = .command → owed = false) :
    (s.step cfg env ev).1.Owes (Beat.owed owed ⟨ev.act, (s.step cfg env ev).2.reply.isSome⟩) := by
  intro hr hv
  by_cases hrun : s.running = true
  · cases hrep : (s.step cfg env ev).2.reply with
    | some r =>
      exfalso
      cases ev with
      | apdu buf rx =>
        have hn : s.view = none := by
          by_contra hn
          have := h hrun hn
          rw [hw rfl] at this
          cases this
        rcases s.step_view cfg env (.apdu buf rx) with he | he | ⟨v, ho⟩
        · exact hv (by rw [he, hn])
        · exact hv he
        · rw [ho.quiet.1] at hrep
          cases hrep
      | relaunch => exact hv rfl
      | left => exact hv (Dev.button_reply rfl hrep).2
      | right => exact hv (Dev.button_reply rfl hrep).2
      | both => exact hv (Dev.button_reply rfl hrep).2
      | expert => exact hv (Dev.button_reply rfl hrep).2
    | none =>
      have huser : ev.isButton = true → ev.act = .user → owed = true := by
        intro hb _
        rcases s.step_view cfg env ev with he | he | ⟨v, ho⟩
        · exact h hrun (by rw [← he]; exact hv)
        · exact absurd he hv
        · obtain ⟨buf, rx, c, p, u, hrec, -⟩ := ho.ex
          rw [hrec.ev] at hb
          cases hb
      cases ev with
      | apdu buf rx => rfl
      | relaunch => exact absurd rfl hv
      | left => simp [Beat.owed, Event.act, huser rfl rfl]
      | right => simp [Beat.owed, Event.act, huser rfl rfl]
      | both => simp [Beat.owed, Event.act, huser rfl rfl]
      | expert => simp [Beat.owed, Event.act, huser rfl rfl]
  · exfalso
    obtain ⟨v, hv⟩ := Option.ne_none_iff_exists'.mp hv
    have := (Dev.step_stopped (cfg := cfg) (env := env) (ev := ev) (by simpa using hrun)).2 v hv
    rw [this] at hr
    cases hr

/-- The moments of a waiting host on the board, as long as its reviews are in their place. -/
theorem Board.Sound.waits {L : Layout} {cfg : Config} (hcm : cfg.commit.length ≤ 8) {es : List (Env × Input)}
    (hs : ∀ e ∈ es, e.1.cr.Sized) {x : Board} (h : x.Sound L) {owed : Bool} (ho : x.dev.Owes owed)
    (hw : Waits owed ((x.trace L cfg es).map Board.At.beat)) :
    (∀ m ∈ x.trace L cfg es, m.board.dev.running = true → m.board.dev.view ≠ none → ∀ data, m.input ≠ .command data) ∧
    (x.trace L cfg es).map Board.At.moment = x.dev.trace cfg (x.events L cfg es) := by
  induction es generalizing x owed with
  | nil => exact ⟨fun m hm => (by cases hm), rfl⟩
  | cons e es ih =>
    obtain ⟨env, i⟩ := e
    simp only [Board.trace, List.map_cons, Waits] at hw
    obtain ⟨hw1, hw2⟩ := hw
    have hno : x.dev.running = true → x.dev.view ≠ none → ∀ data, i ≠ .command data := by
      intro hr hv data he
      subst he
      have := ho hr hv
      rw [hw1 rfl] at this
      cases this
    obtain ⟨h1, h2, h3⟩ := h.step hcm (hs (env, i) (by simp)) (fun data he hr hv => absurd he (hno hr hv data))
    have hact : (x.event i).act = i.act := by cases i <;> rfl
    have ho' : (x.step L cfg env i).1.dev.Owes (Beat.owed owed (Board.At.beat ⟨x, env, i, (x.step L cfg env i).2⟩)) := by
      rw [h2]
      show Dev.Owes _ (Beat.owed owed ⟨i.act, (x.step L cfg env i).2.reply.isSome⟩)
      rw [h3, ← hact]
      exact ho.step (by rw [hact]; exact hw1)
    obtain ⟨g1, g2⟩ := ih (fun e he => hs e (by simp [he])) h1 ho' hw2
    refine ⟨?_, ?_⟩
    · intro m hm
      simp only [Board.trace, List.mem_cons] at hm
      rcases hm with rfl | hm
      · exact hno
      · exact g1 m hm
    · simp only [Board.trace, List.map_cons, Board.events, Dev.trace, g2, h2, List.cons.injEq, and_true]
      unfold Board.At.moment
      rw [h3]

theorem Dev.owes_factory (new : NewDevice) : (Dev.factory new).Owes false := fun _ hv => absurd rfl hv

/-- C105: if the host waits for its answers, no command reaches the app while a review is pending. -/
theorem C105_no_command_in_review (L : Layout) (cfg : Config) (hcm : cfg.commit.length ≤ 8) (new : NewDevice)
    (ram : Bytes) (es : List (Env × Input)) (hs : ∀ e ∈ es, e.1.cr.Sized)
    (hw : Waits false (((Board.factory new ram).trace L cfg es).map Board.At.beat)) :
    ∀ m ∈ (Board.factory new ram).trace L cfg es, m.board.dev.running = true → m.board.dev.view ≠ none →
      ∀ data, m.input ≠ .command data :=
  ((Board.Sound.factory L new ram).waits hcm hs (Dev.owes_factory new) hw).1

/-- C105: if the host waits for its answers, the board goes, moment by moment, through a history of the app to which no
command comes while a review is pending. So everything proved about histories of the app holds of the board. -/
theorem C105_same_history (L : Layout) (cfg : Config) (hcm : cfg.commit.length ≤ 8) (new : NewDevice)
    (ram : Bytes) (es : List (Env × Input)) (hs : ∀ e ∈ es, e.1.cr.Sized)
    (hw : Waits false (((Board.factory new ram).trace L cfg es).map Board.At.beat)) :
    ∃ evs, List.Forall₂ Reaches es evs ∧
      ((Board.factory new ram).trace L cfg es).map Board.At.moment = (Dev.factory new).trace cfg evs ∧
      Orderly ((Dev.factory new).trace cfg evs) := by
  obtain ⟨h1, h2⟩ := (Board.Sound.factory L new ram).waits hcm hs (Dev.owes_factory new) hw
  refine ⟨_, ((Board.Sound.factory L new ram).run hcm hs
    (fun m hm data hd hr hv => absurd hd (h1 m hm hr hv data))).1, h2, ?_⟩
  change Orderly ((Board.factory new ram).dev.trace cfg _)
  rw [← h2]
  intro m hm hr hv buf rx he
  obtain ⟨a, ha, rfl⟩ := List.mem_map.mp hm
  have hn := h1 a ha hr hv
  change a.board.event a.input = _ at he
  cases hi : a.input with
  | command data => exact hn data hi
  | _ => rw [hi] at he; cases he

/-! ### What then holds of signatures -/

theorem Reaches.good {es : List (Env × Input)} {evs : List (Env × Event)} (h : List.Forall₂ Reaches es evs)
    (hg : ∀ e ∈ es, e.1.copyF = .done ∧ e.1.appendF = .done) : ∀ e ∈ evs, Good e.1 e.2 := by
  intro e he
  obtain ⟨e', he', hr⟩ := forall₂_right h he
  have := hg e' he'
  cases hr with
  | command hb hp => exact ⟨this.1, this.2, by simp [Event.Full, hb]⟩
  | _ => exact ⟨this.1, this.2, trivial⟩

theorem Reaches.same_envs {es : List (Env × Input)} {evs : List (Env × Event)} (h : List.Forall₂ Reaches es evs)
    {P : Env → Prop} (hp : ∀ e ∈ es, P e.1) : ∀ e ∈ evs, P e.1 := by
  intro e he
  obtain ⟨e', he', h'⟩ := Reaches.envs h ⟨e, he, rfl⟩
  rw [← h']
  exact hp e' he'

/-- C105: C42 in full. A signature that is not of a consensus message is given out when the user approves the review that
the request for this message opened; the signed digest is that of the message; and what was on the review all along was
this message. -/
theorem C105_approved_is_reviewed (L : Layout) (cfg : Config) (hcm : cfg.commit.length ≤ 8) (new : NewDevice)
    (ram : Bytes) (es : List (Env × Input)) (hs : ∀ e ∈ es, e.1.cr.Sized)
    (hw : Waits false (((Board.factory new ram).trace L cfg es).map Board.At.beat)) (past rest : List Board.At)
    (m : Board.At) (h : (Board.factory new ram).trace L cfg es = past ++ m :: rest) (x : SigRec)
    (hx : m.out.sig = some x) (hm : isConsensusMagic x.msg = false) :
    ∃ v a m0 b, past = a ++ m0 :: b ∧ Approves m.board.dev (m.board.event m.input) v ∧ m0.moment.Opens cfg v ∧
      (∀ y ∈ b, y.board.dev.view = some v ∧ ∀ w, ¬ y.moment.Opens cfg w) ∧
      m0.env.cr.blake2b 32 x.msg = some x.digest ∧
      ∀ y ∈ b ++ [m], ∃ w, y.board.dev.viewer y.env = some w ∧ MessageReview cfg.build y.env.cr x.digest x.msg w := by
  obtain ⟨evs, -, he, ho⟩ := C105_same_history L cfg hcm new ram es hs hw
  have ht : (Dev.factory new).trace cfg evs =
      past.map Board.At.moment ++ m.moment :: rest.map Board.At.moment := by
    rw [← he, h, List.map_append, List.map_cons]
  obtain ⟨v, a, m0, b, hp, ha, hop, hb, hd, hr⟩ :=
    C42_approved_is_reviewed_orderly cfg new evs ho _ _ m.moment ht x hx hm
  obtain ⟨a', b0, rfl, rfl, hb0⟩ := List.map_eq_append_iff.mp hp
  obtain ⟨m0', b', rfl, rfl, rfl⟩ := List.map_eq_cons_iff.mp hb0
  refine ⟨v, a', m0', b', rfl, ha, hop, fun y hy => hb y.moment (List.mem_map_of_mem hy), hd, fun y hy => ?_⟩
  refine hr y.moment ?_
  rcases List.mem_append.mp hy with hy | hy
  · exact List.mem_append_left _ (List.mem_map_of_mem hy)
  · rw [List.mem_singleton.mp hy]
    exact List.mem_append_right _ (List.mem_singleton.mpr rfl)

/-- C105: C43 in full. A signature that is not of a consensus message is of the message completed by the packet that
opened the approved review, and made with the curve and path given in the opening packet of that upload. -/
theorem C105_requested_key (L : Layout) (cfg : Config) (hcm : cfg.commit.length ≤ 8) (new : NewDevice)
    (hu : new.upload.length = uploadCapacity) (ram : Bytes) (es : List (Env × Input)) (hs : ∀ e ∈ es, e.1.cr.Sized)
    (hg : ∀ e ∈ es, e.1.copyF = .done ∧ e.1.appendF = .done)
    (hw : Waits false (((Board.factory new ram).trace L cfg es).map Board.At.beat)) (past rest : List Board.At)
    (m : Board.At) (h : (Board.factory new ram).trace L cfg es = past ++ m :: rest) (x : SigRec)
    (hx : m.out.sig = some x) (hm : isConsensusMagic x.msg = false) :
    ∃ v a m0 b k q2 first, past = a ++ m0 :: b ∧ Approves m.board.dev (m.board.event m.input) v ∧
      m0.moment.Opens cfg v ∧ (m0.board.event m0.input).packet cfg.build = some k ∧
      (feed (sessionIn cfg (a.map Board.At.moment)) k).2 = some (q2, first, x.msg) ∧
      Curve.ofByte q2 = some x.curve ∧ first = UInt8.ofNat x.path.length :: x.path.flatMap be32 := by
  obtain ⟨evs, hre, he, ho⟩ := C105_same_history L cfg hcm new ram es hs hw
  have ht : (Dev.factory new).trace cfg evs =
      past.map Board.At.moment ++ m.moment :: rest.map Board.At.moment := by
    rw [← he, h, List.map_append, List.map_cons]
  obtain ⟨v, a, m0, b, k, q2, first, hp, ha, hop, hk, hf, hc, hfirst⟩ :=
    C43_requested_key_orderly cfg new hu evs (Reaches.good hre hg) ho _ _ m.moment ht x hx hm
  obtain ⟨a', b0, rfl, rfl, hb0⟩ := List.map_eq_append_iff.mp hp
  obtain ⟨m0', b', rfl, rfl, rfl⟩ := List.map_eq_cons_iff.mp hb0
  exact ⟨v, a', m0', b', k, q2, first, rfl, ha, hop, hk, hf, hc, hfirst⟩

/-- C105: C98 in full. The digests signed are those of ever higher consensus messages. -/
theorem C105_digests_increase (L : Layout) (cfg : Config) (hcm : cfg.commit.length ≤ 8) (new : NewDevice)
    (ram : Bytes) (es : List (Env × Input)) (a1 a2 : Board.At) (hb : BoardBetween L cfg new ram es a1 a2)
    (hs : ∀ e ∈ es, e.1.cr.Sized)
    (hw : Waits false (((Board.factory new ram).trace L cfg es).map Board.At.beat))
    (H : Bytes → Bytes) (hH : ∀ e ∈ es, ∀ m d, e.1.cr.blake2b 32 m = some d → d = H m)
    (x1 x2 : SigRec) (h1 : a1.out.sig = some x1) (h2 : a2.out.sig = some x2) (m1 m2 : Bytes)
    (d1 : x1.digest = H m1) (d2 : x2.digest = H m2) (n1 : H x1.msg = H m1 → x1.msg = m1)
    (n2 : H x2.msg = H m2 → x2.msg = m2) (c1 : isConsensusMagic m1 = true) (c2 : isConsensusMagic m2 = true) :
    ∃ i1 i2, consensusItem m1 = some i1 ∧ consensusItem m2 = some i2 ∧ Item.lt i1 i2 :=
  C98_digests_increase_partial L cfg hcm new ram es a1 a2 hb hs
    (fun m hm data hd hr hv => absurd hd (C105_no_command_in_review L cfg hcm new ram es hs hw m hm hr hv data))
    H hH x1 x2 h1 h2 m1 m2 d1 d2 n1 n2 c1 c2

/-! ### Programs written with the client library wait -/

/-- A call of the client that has not ended: its exchanges so far, and perhaps an APDU without an answer yet. -/
inductive Underway {ρ : Type} : Client ρ → List Moment → Prop where
  | begun {c : Client ρ} : Underway c []
  | quiet {c : Client ρ} {m : Moment} {t : List Moment} (hm : m.Quiet) (h : Underway c t) : Underway c (m :: t)
  | send {ins p1 p2 : UInt8} {data a : Bytes} {next : Bytes → Client ρ} {s t : List Moment}
      (he : Exchange ins p1 p2 data a s) (h : Underway (next a) t) : Underway (.send ins p1 p2 data next) (s ++ t)
  | sent {ins p1 p2 : UInt8} {data : Bytes} {next : Bytes → Client ρ} {m : Moment} {q : List Moment}
      (hc : Carries m.ev ins p1 p2 data) (hn : m.out.reply = none) (hq : ∀ y ∈ q, y.Quiet) :
      Underway (.send ins p1 p2 data next) (m :: q)

/-- The host does nothing but call the client library, one call after the other; whatever calls these are, and whatever
the user does. A call may be broken off when the app is started again, and the last call may still be under way. -/
inductive ClientOnly : List Moment → Prop where
  | idle : ClientOnly []
  | between {m : Moment} {t : List Moment} (hm : m.ev.isButton = true) (h : ClientOnly t) : ClientOnly (m :: t)
  | call {ρ : Type} {c : Client ρ} {s t : List Moment} {r : ρ} (hc : Talk c s r) (h : ClientOnly t) :
      ClientOnly (s ++ t)
  | broken {ρ : Type} {c : Client ρ} {s t : List Moment} {m : Moment} (hc : Underway c s) (hm : m.ev = .relaunch)
      (h : ClientOnly t) : ClientOnly (s ++ m :: t)
  | unfinished {ρ : Type} {c : Client ρ} {s : List Moment} (hc : Underway c s) : ClientOnly s

theorem Event.act_button {ev : Event} (h : ev.isButton = true) : ev.act ≠ .command := by
  cases ev <;> first | (cases h; done) | (intro h; cases h)

theorem Moment.owed_button {m : Moment} (h : m.ev.isButton = true) : m.beat.owed false = false := by
  obtain ⟨s, env, ev, o⟩ := m
  cases ev <;> first | (cases h; done) | rfl

theorem Waits.quiet {owed : Bool} {q t : List Moment} (hq : ∀ y ∈ q, y.Quiet)
    (h : ∀ o, (o = true → owed = true) → Waits o (t.map Moment.beat)) :
    Waits owed ((q ++ t).map Moment.beat) := by
  induction q generalizing owed with
  | nil => exact h owed id
  | cons y q ih =>
    have hy := Event.act_button (hq y (by simp)).button
    refine ⟨fun he => absurd he hy, ih (fun z hz => hq z (by simp [hz])) fun o ho => h o fun h' => ?_⟩
    have := ho h'
    unfold Beat.owed Moment.beat at this
    dsimp only at this
    cases ha : y.ev.act with
    | command => exact absurd ha hy
    | start => rw [ha] at this; cases this
    | user => rw [ha, Bool.and_eq_true] at this; exact this.1

theorem Exchange.waits {ins p1 p2 : UInt8} {data a : Bytes} {s t : List Moment} (he : Exchange ins p1 p2 data a s)
    (h : Waits false (t.map Moment.beat)) : Waits false ((s ++ t).map Moment.beat) := by
  cases he with
  | @atOnce m hc hr =>
    obtain ⟨buf, rx, he⟩ := hc.isApdu
    refine ⟨fun _ => rfl, ?_⟩
    have : m.beat.owed false = false := by simp [Moment.beat, Beat.owed, he, Event.act, hr]
    rw [this]
    exact h
  | @later m l q hc hn hq hl hr =>
    rw [List.cons_append, List.append_assoc]
    refine ⟨fun _ => rfl, Waits.quiet hq fun o _ => ⟨fun he => absurd he (Event.act_button hl), ?_⟩⟩
    have : l.beat.owed o = false := by
      unfold Moment.beat Beat.owed
      split <;> simp_all [Event.act_button]
    rw [this]
    exact h

theorem Waits.quiet_false {m : Moment} {t : List Moment} (hm : m.ev.isButton = true)
    (h : Waits false (t.map Moment.beat)) : Waits false ((m :: t).map Moment.beat) :=
  ⟨fun he => absurd he (Event.act_button hm), by rw [Moment.owed_button hm]; exact h⟩

theorem Talk.waits {ρ : Type} {c : Client ρ} {s t : List Moment} {r : ρ} (hc : Talk c s r)
    (h : Waits false (t.map Moment.beat)) : Waits false ((s ++ t).map Moment.beat) := by
  induction hc with
  | done => exact h
  | quiet hm _ ih => exact Waits.quiet_false hm.button ih
  | send he _ ih => rw [List.append_assoc]; exact he.waits ih

/-- A call under way, after which the host sends nothing before the app is started again. -/
theorem Underway.waits {ρ : Type} {c : Client ρ} {s t : List Moment} (hc : Underway c s)
    (h : ∀ o, Waits o (t.map Moment.beat)) : Waits false ((s ++ t).map Moment.beat) := by
  induction hc with
  | begun => exact h false
  | quiet hm _ ih => exact Waits.quiet_false hm.button ih
  | send he _ ih => rw [List.append_assoc]; exact he.waits ih
  | sent hc hn hq => exact ⟨fun _ => rfl, Waits.quiet hq fun o _ => h o⟩

/-- C105: a host that does nothing but call the client library waits for its answers. -/
theorem C105_client_waits (t : List Moment) (h : ClientOnly t) : Waits false (t.map Moment.beat) := by
  induction h with
  | idle => trivial
  | between hm _ ih => exact Waits.quiet_false hm ih
  | call hc _ ih => exact hc.waits ih
  | @broken ρ c s t m hc hm _ ih =>
    refine hc.waits fun o => ⟨fun he => ?_, ?_⟩
    · simp [Moment.beat, hm, Event.act] at he
    · have : m.beat.owed o = false := by simp [Moment.beat, Beat.owed, hm, Event.act]
      rw [this]
      exact ih
  | unfinished hc =>
    have := hc.waits (t := []) (fun _ => trivial)
    rwa [List.append_nil] at this

theorem Board.At.beats (t : List Board.At) : (t.map Board.At.moment).map Moment.beat = t.map Board.At.beat := by
  rw [List.map_map]
  exact List.map_congr_left fun a _ => a.moment_beat

/-- C105: two calls of the client in a history of a board whose host does nothing but call the client library. If both ask
for signatures of consensus messages and return success, the message of the later call is about a strictly higher item.
(C101 for the board.) -/
theorem C105_baker (L : Layout) (cfg : Config) (hcm : cfg.commit.length ≤ 8) (new : NewDevice)
    (hu : new.upload.length = uploadCapacity) (ram : Bytes) (es : List (Env × Input))
    (hs : ∀ e ∈ es, e.1.cr.Sized ∧ e.1.copyF = .done ∧ e.1.appendF = .done ∧ e.1.mainF.Sound)
    (hl : es.length < 2 ^ 64) (past t1 mid t2 rest : List Board.At)
    (hsp : (Board.factory new ram).trace L cfg es = past ++ (t1 ++ (mid ++ (t2 ++ rest))))
    (hno : ∀ m ∈ t1 ++ (mid ++ t2), ¬ Overrides cfg m.board.dev (m.board.event m.input))
    (hw : ClientOnly (((Board.factory new ram).trace L cfg es).map Board.At.moment))
    (js : Js) (hjs : js.ReadsDecimal) (path1 path2 : Bytes) (cs1 cs2 : List Component)
    (hp1 : IsPathText path1 cs1) (hp2 : IsPathText path2 cs2) (curve1 curve2 : UInt8) (message1 message2 : Bytes)
    (b1 b2 : UInt8) (call1 call2 : Client SignResponse) (hc1 : SigningRequest js path1 curve1 message1 b1 call1)
    (hc2 : SigningRequest js path2 curve2 message2 b2 call2) (r1 r2 : SignResponse)
    (ht1 : Talk call1 (t1.map Board.At.moment) r1) (ht2 : Talk call2 (t2.map Board.At.moment) r2)
    (hm1 : isConsensusMagic (b1 :: message1) = true) (hm2 : isConsensusMagic (b2 :: message2) = true)
    (hr1 : r1.returnCode = 0x9000) (hr2 : r2.returnCode = 0x9000) :
    ∃ i1 i2, consensusItem (b1 :: message1) = some i1 ∧ consensusItem (b2 :: message2) = some i2 ∧ Item.lt i1 i2 := by
  have hw' := C105_client_waits _ hw
  rw [Board.At.beats] at hw'
  obtain ⟨evs, hre, he, -⟩ := C105_same_history L cfg hcm new ram es (fun e h => (hs e h).1) hw'
  refine C101_increasing cfg new evs _ _ ⟨hu, Reaches.good hre fun e h => ⟨(hs e h).2.1, (hs e h).2.2.1⟩,
    Reaches.same_envs (P := fun v => v.cr.Sized) hre fun e h => (hs e h).1,
    Reaches.same_envs (P := fun v => v.mainF.Sound) hre fun e h => (hs e h).2.2.2,
    by rw [← hre.length_eq]; exact hl, past.map Board.At.moment, mid.map Board.At.moment, rest.map Board.At.moment,
    ?_, ?_⟩ js hjs path1 path2 cs1 cs2 hp1 hp2 curve1 curve2 message1 message2 b1 b2 call1 call2 hc1 hc2 r1 r2 ht1 ht2 hm1
    hm2 hr1 hr2
  · rw [← he, hsp]
    simp only [List.map_append]
  · intro m hm
    rw [← List.map_append, ← List.map_append] at hm
    obtain ⟨a, ha, rfl⟩ := List.mem_map.mp hm
    exact hno a ha

/-! ### Examples -/

namespace Demo

/-- The host of `slotTwice`, without the command during the review, and with two more requests. -/
def patient : List (Env × Input) :=
  (setupInputs ++ [cmd 0x04 0 0 keyPath, cmd 0x04 0x81 0 block1] ++ during [] delegation 11 ++
    [cmd 0x04 0 0 keyPath, cmd 0x04 0x81 0 block2, .relaunch [], cmd 0x04 0 0 keyPath,
      cmd 0x04 0x81 0 (tbBlock 5 1 2)]).map (fine, ·)

set_option maxRecDepth 100000 in
/-- Satisfiable: this host waits; three messages are signed, the delegation after a review; the second block of the same
level and round is refused. The host of `slotTwice` does not wait. -/
example :
    let t := board.trace layout bakingApp patient
    Waits false (t.map Board.At.beat) ∧
    (t.filterMap Board.At.signed).map (·.2.2) = [hash 32 block1, hash 32 delegation, hash 32 (tbBlock 5 1 2)] ∧
    (∃ a ∈ t, a.board.dev.running = true ∧ a.board.dev.view ≠ none) ∧
    ¬ Waits false ((board.trace layout bakingApp slotTwice).map Board.At.beat) := by
  decide +kernel

theorem clientOnly_play {ρ : Type} {c : Option (Client ρ)} {t : List Moment} (n : Nat)
    (h : (c.bind fun c => play (t.take n) (.inl c)).isSome = true) (h' : ClientOnly (t.drop n)) : ClientOnly t := by
  obtain ⟨r, hr⟩ := Option.isSome_iff_exists.mp h
  obtain ⟨c, -, hc⟩ := Option.bind_eq_some_iff.mp hr
  rw [← List.take_append_drop n t]
  exact .call (play_talk.1 c hc) h'

/-- `bakerAsks`, as commands: a setup, a block, the app started again, another block of the same level and round, and a
block of the next round. -/
def bakerHost : List (Env × Input) :=
  (setupInputs ++ [cmd 0xAF 0 0 keyPath, cmd 0xAF 2 0 (tbBlock 11 0), .relaunch [], cmd 0xAF 0 0 keyPath,
    cmd 0xAF 2 0 (tbBlock 11 0 1), cmd 0xAF 0 0 keyPath, cmd 0xAF 2 0 (tbBlock 11 1)]).map (fine, ·)

def bakerTrace : List Board.At :=
  (Board.factory ⟨.small, List.replicate uploadCapacity 0⟩ []).trace layout bakingApp bakerHost

set_option maxRecDepth 100000 in
/-- Satisfiable: the host of this history only calls the client library (the setup is one APDU); the first and the third
request succeed. -/
example :
    ClientOnly (bakerTrace.map Board.At.moment) ∧
    (let ask := fun (t : List Board.At) (m : Bytes) =>
      ((signBaker js pathText 0 (m.drop 1) .blocklevel).bind fun c => play (t.map Board.At.moment) (.inl c)).map
        (·.returnCode)
    ask ((bakerTrace.drop 8).take 2) (tbBlock 11 0) = some 0x9000 ∧
    ask ((bakerTrace.drop 11).take 2) (tbBlock 11 0 1) = some 0x6984 ∧
    ask ((bakerTrace.drop 13).take 2) (tbBlock 11 1) = some 0x9000 ∧
    (∀ m ∈ bakerTrace.drop 8, ¬ Overrides bakingApp m.board.dev (m.board.event m.input)) ∧
    ∀ e ∈ bakerHost, e.1.copyF = .done ∧ e.1.appendF = .done ∧ e.1.mainF.Sound) := by
  refine ⟨?_, by decide +kernel⟩
  generalize ht : bakerTrace.map Board.At.moment = t
  refine clientOnly_play (c := some (Client.send 0x0A 0 0 (mainnet ++ be32 1 ++ be32 0 ++ keyPath) .done)) 8
    (by rw [← ht]; decide +kernel) ?_
  refine clientOnly_play (c := signBaker js pathText 0 ((tbBlock 11 0).drop 1) .blocklevel) 3
    (by rw [← ht]; decide +kernel) ?_
  refine clientOnly_play (c := signBaker js pathText 0 ((tbBlock 11 0 1).drop 1) .blocklevel) 2
    (by rw [← ht]; decide +kernel) ?_
  refine clientOnly_play (c := signBaker js pathText 0 ((tbBlock 11 1).drop 1) .blocklevel) 2
    (by rw [← ht]; decide +kernel) ?_
  have : ((((t.drop 8).drop 3).drop 2).drop 2).length = 0 := by rw [← ht]; decide +kernel
  rw [List.length_eq_zero_iff.mp this]
  exact .idle

end Demo

end Tezos
