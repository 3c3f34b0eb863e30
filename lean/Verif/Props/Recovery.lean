import Verif.Props.Watermarks
import Verif.Props.WalkX
import Verif.Props.Baker
import Mathlib.Data.List.Forall2
/-
C116: a watermark write that fails with an exception brings back an old watermark (C16, C01_write_exception_rolls_back),
but the host is told, and a restart repairs it. Bakers that restart the app after the two status words in question are
protected as if no write had failed in this way.
-/
set_option linter.unusedSimpArgs false
set_option linter.unusedVariables false
namespace Tezos
open Spec
attribute [local irreducible] knownBakers

/-! ### A failing write and a power loss -/

/-- The same world in which a write of the watermark that fails is cut by a power loss instead. -/
def Env.cutMain (env : Env) : Env :=
  match env.mainF with
  | .fails l => { env with mainF := .powerLoss l }
  | _ => env

/-- The words that a failing write is answered with. -/
def ApduError.Trouble (e : ApduError) : Prop := e = .executionError ∨ e = .busy

/-- Two results: the same, or of a failing write and of one cut by a power loss. -/
def Res.Cut (r r' : Res) : Prop :=
  r' = r ∨ ∃ e, e.Trouble ∧ r.out = .err e ∧ r'.out = .fault .powerLoss ∧
    r'.st = { r.st with main := r.st.main.relaunch }

theorem Res.Cut.refl {r : Res} : Res.Cut r r := .inl rfl

section
variable {s : Dev} {env : Env} {l : PageLeft}

theorem Dev.writeMain_cut (m : WaterMark) {e : ApduError} (he : e.Trouble) {k k' : Dev → Res}
    (hk : ∀ s, k' s = k s) :
    Res.Cut ((s.writeMain { env with mainF := .fails l } m).1.afterWrite
        (s.writeMain { env with mainF := .fails l } m).2 e k)
      ((s.writeMain { env with mainF := .powerLoss l } m).1.afterWrite
        (s.writeMain { env with mainF := .powerLoss l } m).2 e k') := by
  simp only [Dev.writeMain, Store.write]
  cases s.main.wear with
  | error x => exact .refl
  | ok w =>
    simp only [Fate.forWear, Wear.write]
    split
    · exact .refl
    · exact .inr ⟨e, he, rfl, rfl, rfl⟩

theorem Dev.autoSign_cut (sendHash : Bool) (digest msg : Bytes) (dc : WaterMark → Except HErr WaterMark) :
    Res.Cut (s.autoSign { env with mainF := .fails l } sendHash digest msg dc)
      (s.autoSign { env with mainF := .powerLoss l } sendHash digest msg dc) := by
  unfold Dev.autoSign
  cases s.main.read with
  | ok b =>
    simp only [Dev.withRead]
    cases dc (WaterMark.decode b) with
    | error e => cases e <;> exact .refl
    | ok m => exact Dev.writeMain_cut m (.inl rfl) fun s => rfl
  | err x => exact .refl
  | panic => exact .refl

theorem Dev.bakerSign_cut (sendHash : Bool) (p2 : UInt8) (first data : Bytes) (ref : MemRef) :
    Res.Cut (s.bakerSign { env with mainF := .fails l } sendHash p2 first data ref)
      (s.bakerSign { env with mainF := .powerLoss l } sendHash p2 first data ref) := by
  unfold Dev.bakerSign
  unfold Dev.withPath
  cases Curve.ofByte p2 with
  | none => exact .refl
  | some cv =>
    dsimp only
    cases Path.read bip32MaxLength first with
    | error e => exact .refl
    | ok path =>
      dsimp only
      unfold Dev.withKey
      cases s.key.read with
      | err x => exact .refl
      | panic => exact .refl
      | ok b =>
        simp only [Dev.withRead]
        cases PathAndCurve.tryFromBytes b with
        | error e => exact .refl
        | ok o =>
          cases o with
          | none => exact .refl
          | some k =>
            dsimp only
            split
            · exact .refl
            · cases env.cr.blake2b 32 data with
              | none => exact .refl
              | some digest =>
                dsimp only
                cases hp : Preamble.parse data with
                | error e => cases e <;> exact .refl
                | ok rp =>
                  obtain ⟨rem, p⟩ := rp
                  cases p
                  case tenderbakePreendorsement => exact Dev.autoSign_cut _ _ _ _
                  case tenderbakeEndorsement => exact Dev.autoSign_cut _ _ _ _
                  case endorsement => exact Dev.autoSign_cut _ _ _ _
                  case tenderbakeBlock => exact Dev.autoSign_cut _ _ _ _
                  case block => exact Dev.autoSign_cut _ _ _ _
                  all_goals exact .refl

theorem Dev.cmdReset_cut (pl : Option Bytes) :
    Res.Cut (s.cmdReset { env with mainF := .fails l } pl) (s.cmdReset { env with mainF := .powerLoss l } pl) := by
  unfold Dev.cmdReset
  cases pl with
  | none => exact .refl
  | some p =>
    dsimp only
    split
    · exact .refl
    · unfold Dev.resetHwm
      exact Dev.writeMain_cut _ (.inl rfl) fun s => rfl

theorem View.accept_cut (v : View) :
    Res.Cut (v.accept { env with mainF := .fails l } s) (v.accept { env with mainF := .powerLoss l } s) := by
  cases v with
  | setup k a m tl ch =>
    simp only [View.accept]
    cases env.cr.publicKey k.curve k.path with
    | none => exact .refl
    | some key =>
      dsimp only
      have h1 : s.storeKey { env with mainF := .powerLoss l } k = s.storeKey { env with mainF := .fails l } k := rfl
      rw [h1]
      generalize s.storeKey { env with mainF := .fails l } k = w
      obtain ⟨s, r⟩ := w
      cases r with
      | ok =>
        have ha : ∀ (k : Dev → Res), (s, WriteRes.ok).1.afterWrite (s, WriteRes.ok).2 .executionError k = k s :=
          fun _ => rfl
        rw [ha, ha]
        exact Dev.writeMain_cut _ (.inr rfl) fun s => rfl
      | _ => exact .refl
  | _ => exact .refl

theorem Dev.exec_cut (cfg : Config) (cmd : Cmd) (p1 p2 : UInt8) (pl : Option Bytes) :
    Res.Cut (s.exec cfg { env with mainF := .fails l } cmd p1 p2 pl)
      (s.exec cfg { env with mainF := .powerLoss l } cmd p1 p2 pl) := by
  cases cmd with
  | reset => exact Dev.cmdReset_cut _
  | bakerSign sh =>
    simp only [Dev.exec, Dev.cmdUpload]
    rcases s.upl.upload env.copyF env.appendF .baking p1 p2 pl with ⟨r1, r2⟩
    dsimp only
    cases r2 with
    | complete p2 first data ref =>
      dsimp only
      rcases Dev.bakerSign_cut (s := { s with upl := r1 }) (env := env) (l := l) sh p2 first data ref with
        h | ⟨e, he, h1, h2, h3⟩
      · rw [h]
        exact .refl
      · refine .inr ⟨e, he, h1, h2, ?_⟩
        simp only [h3]
    | _ => exact .refl
  | _ => exact .refl

theorem Dev.dispatch_cut (cfg : Config) (buf : Bytes) (rx : Nat) :
    Res.Cut (s.dispatch cfg { env with mainF := .fails l } buf rx)
      (s.dispatch cfg { env with mainF := .powerLoss l } buf rx) := by
  unfold Dev.dispatch
  split
  · exact .refl
  · split
    · exact .refl
    · cases command cfg.build (buf.getD 1 0) with
      | none => exact .refl
      | some cmd => exact Dev.exec_cut cfg cmd _ _ _

/-- What a restart keeps is the same. -/
structure Dev.Rested (s s' : Dev) : Prop where
  pages : SamePages s s'
  flash : s'.upl.buf.flash = s.upl.buf.flash

theorem Dev.Rested.relaunch {s s' : Dev} (h : s.Rested s') (hd : s'.zui.display = s.zui.display) :
    s'.relaunch = s.relaunch := by
  obtain ⟨⟨h1, h2, h3, h4⟩, h5⟩ := h
  simp only [Dev.relaunch, Store.relaunch, h1, h2, h3, h4, h5, hd]

/-- The word of a failing write. -/
def Output.Trouble (o : Output) : Prop :=
  o.reply = some (statusWord .executionError) ∨ o.reply = some (statusWord .busy)

/-- Two outcomes of an event: the same, or of a failing write and of one cut by a power loss. -/
def StepCut (r r' : Dev × Output) : Prop :=
  r' = r ∨ (r.2.Trouble ∧ r.2.sig = none ∧ r'.2.sig = none ∧ r.1.Rested r'.1 ∧ r'.1.running = false)

theorem Res.Cut.deliver {r r' : Res} (h : Res.Cut r r') : StepCut r.deliver r'.deliver := by
  rcases h with rfl | ⟨e, he, h1, h2, h3⟩
  · exact .inl rfl
  · refine .inr ?_
    simp only [Res.deliver, h1, h2, h3]
    refine ⟨?_, trivial, trivial, ⟨⟨rfl, rfl, rfl, rfl⟩, rfl⟩, trivial⟩
    rcases he with rfl | rfl
    · exact .inl rfl
    · exact .inr rfl

theorem Dev.approve_cut :
    StepCut (s.approve { env with mainF := .fails l }) (s.approve { env with mainF := .powerLoss l }) := by
  obtain ⟨m, te, ch, k, u, p, z, view, run⟩ := s
  cases view with
  | none => exact .inl rfl
  | some v =>
    rcases (View.accept_cut (s := ⟨m, te, ch, k, u, p, { z with screen := .idle }, some v, run⟩) (env := env) (l := l)
      v).deliver with h | ⟨h1, h2, h3, h4, h5⟩
    · have hv := congrArg (fun r : Dev × Output => (({ r.1 with view := none } : Dev), r.2)) h
      exact .inl hv
    · exact .inr ⟨h1, h2, h3, ⟨⟨h4.pages.main, h4.pages.test, h4.pages.chain, h4.pages.key⟩, h4.flash⟩, h5⟩

/-- Drawing changes nothing that a restart keeps. -/
theorem Dev.redraw_rested (s : Dev) (u : Upd) : (s.redraw u).1.Rested s := by
  cases u with
  | rejected z =>
    simp only [Dev.redraw, Dev.reject]
    cases s.view with
    | none => exact ⟨⟨rfl, rfl, rfl, rfl⟩, rfl⟩
    | some v => cases v <;> exact ⟨⟨rfl, rfl, rfl, rfl⟩, rfl⟩
  | _ => exact ⟨⟨rfl, rfl, rfl, rfl⟩, rfl⟩

theorem Dev.pressBoth_cut :
    StepCut (s.pressBoth { env with mainF := .fails l }) (s.pressBoth { env with mainF := .powerLoss l }) := by
  unfold Dev.pressBoth
  have hk : StepCut
      (match s.zui.chosen with
        | .approve => s.approve { env with mainF := .fails l } | .reject => s.reject | .nothing => (s, .quiet))
      (match s.zui.chosen with
        | .approve => s.approve { env with mainF := .powerLoss l } | .reject => s.reject | .nothing => (s, .quiet)) := by
    cases s.zui.chosen with
    | approve => exact Dev.approve_cut
    | _ => exact .inl rfl
  suffices hs : ∀ r r' : Dev × Output, StepCut r r' → StepCut
      (if r.1.running ∧ r.1.zui.jumps then
        let j := r.1.redraw (r.1.zui.expertJump (r.1.viewer { env with mainF := .fails l }))
        (j.1, ⟨r.2.reply <|> j.2.reply, r.2.sig, r.2.fault <|> j.2.fault⟩)
      else r)
      (if r'.1.running ∧ r'.1.zui.jumps then
        let j := r'.1.redraw (r'.1.zui.expertJump (r'.1.viewer { env with mainF := .powerLoss l }))
        (j.1, ⟨r'.2.reply <|> j.2.reply, r'.2.sig, r'.2.fault <|> j.2.fault⟩)
      else r') from hs _ _ hk
  intro r r' h
  rcases h with rfl | ⟨h1, h2, h3, h4, h5⟩
  · exact .inl rfl
  · rw [if_neg (c := r'.1.running ∧ r'.1.zui.jumps) (by rw [h5]; simp)]
    refine .inr ?_
    split
    · have hr := Dev.redraw_rested r.1 (r.1.zui.expertJump (r.1.viewer { env with mainF := .fails l }))
      refine ⟨?_, h2, h3, ⟨hr.pages.trans h4.pages, h4.flash.trans hr.flash⟩, h5⟩
      rcases h1 with h1 | h1
      · exact .inl (by simp only [h1]; rfl)
      · exact .inr (by simp only [h1]; rfl)
    · exact ⟨h1, h2, h3, h4, h5⟩

/-- A failing write of the watermark either has no part in an event, or the event is answered with one of two words and
without a signature, and leaves in the flash what a power loss would have left. -/
theorem Dev.step_cut (cfg : Config) (ev : Event) : StepCut (s.step cfg env ev) (s.step cfg env.cutMain ev) := by
  unfold Env.cutMain
  split
  · rename_i l hl
    have he : env = { env with mainF := .fails l } := by rw [← hl]
    have : ∀ e : Env, e = { env with mainF := .fails l } →
        StepCut (s.step cfg e ev) (s.step cfg { env with mainF := .powerLoss l } ev) := by
      rintro _ rfl
      cases ev with
      | apdu buf rx =>
        simp only [Dev.step]
        split
        · exact (Dev.dispatch_cut cfg buf rx).deliver
        · exact .inl rfl
      | both =>
        simp only [Dev.step]
        split
        · cases s.zui.screen with
          | review => exact Dev.pressBoth_cut
          | _ => exact .inl rfl
        · exact .inl rfl
      | _ => exact .inl rfl
    exact this _ he
  · exact .inl rfl

end

/-- The events at which the watermark can be written, as the host sees them: requests with the instructions for a reset
and for signing, and pressing both buttons. -/
def Event.MayWrite : Event → Prop
  | .apdu buf _ => buf.getD 1 0 ∈ [0x04, 0x06, 0x0F, 0xAF]
  | .both => True
  | _ => False

instance (ev : Event) : Decidable ev.MayWrite := by
  cases ev <;> unfold Event.MayWrite <;> infer_instance

theorem command_mayWrite {b : Build} {ins : UInt8} {c : Cmd} (h : command b ins = some c)
    (hc : c = .reset ∨ ∃ sh, c = .bakerSign sh) : ins ∈ [0x04, 0x06, 0x0F, 0xAF] := by
  have hd : ∀ b : Build, ∀ i : UInt8, (command b i = some .reset ∨ command b i = some (.bakerSign true) ∨
      command b i = some (.bakerSign false)) → i ∈ [0x04, 0x06, 0x0F, 0xAF] := by
    intro b i
    cases b
    · exact forall_u8 (P := fun i => (command .baking i = some .reset ∨ command .baking i = some (.bakerSign true) ∨
        command .baking i = some (.bakerSign false)) → i ∈ [0x04, 0x06, 0x0F, 0xAF]) (by decide +kernel) i
    · exact forall_u8 (P := fun i => (command .wallet i = some .reset ∨ command .wallet i = some (.bakerSign true) ∨
        command .wallet i = some (.bakerSign false)) → i ∈ [0x04, 0x06, 0x0F, 0xAF]) (by decide +kernel) i
  apply hd b ins
  rcases hc with rfl | ⟨sh, rfl⟩
  · exact .inl h
  · cases sh
    · exact .inr (.inr h)
    · exact .inr (.inl h)

/-- At other events it makes no difference what becomes of a write of the watermark. -/
theorem Dev.step_elsewhere (cfg : Config) (s : Dev) (env : Env) (f : Fate) (ev : Event) (h : ¬ ev.MayWrite) :
    s.step cfg { env with mainF := f } ev = s.step cfg env ev := by
  cases ev with
  | apdu buf rx =>
    have hx : s.dispatch cfg { env with mainF := f } buf rx = s.dispatch cfg env buf rx := by
      unfold Dev.dispatch
      split
      · rfl
      · split
        · rfl
        · cases hc : command cfg.build (buf.getD 1 0) with
          | none => rfl
          | some c =>
            cases c
            case reset => exact absurd (command_mayWrite hc (.inl rfl)) h
            case bakerSign sh => exact absurd (command_mayWrite hc (.inr ⟨sh, rfl⟩)) h
            all_goals rfl
    simp only [Dev.step, hx]
  | both => exact absurd trivial h
  | _ => rfl

/-- The events at which a failing write has a part are those of `Event.MayWrite`. -/
theorem Dev.step_cut_where {s : Dev} {env : Env} (cfg : Config) (ev : Event) :
    s.step cfg env.cutMain ev = s.step cfg env ev ∨
    (ev.MayWrite ∧ (s.step cfg env ev).2.Trouble ∧ (s.step cfg env ev).2.sig = none ∧
      (s.step cfg env.cutMain ev).2.sig = none ∧ (s.step cfg env ev).1.Rested (s.step cfg env.cutMain ev).1 ∧
      (s.step cfg env.cutMain ev).1.running = false) := by
  by_cases hw : ev.MayWrite
  · rcases Dev.step_cut (s := s) (env := env) cfg ev with h | h
    · exact .inl h
    · exact .inr ⟨hw, h⟩
  · refine .inl ?_
    unfold Env.cutMain
    split
    · exact Dev.step_elsewhere cfg s env _ ev hw
    · rfl

/-! ### Histories -/

/-- The same history in worlds where failing writes of the watermark are power losses. -/
def cutHistory (es : List (Env × Event)) : List (Env × Event) := es.map fun e => (e.1.cutMain, e.2)

/-- How the moments of the two histories compare. -/
structure Moment.Twin (m m' : Moment) : Prop where
  ev : m'.ev = m.ev
  sig : m'.out.sig = m.out.sig
  st : m'.st = m.st ∨ m.ev = .relaunch

/-- After each of the two words, answered to an event at which the watermark can be written, the app is restarted. -/
def Restarts (t : List Moment) : Prop :=
  ∀ a m m' b, t = a ++ m :: m' :: b → m.ev.MayWrite → m.out.Trouble → m'.ev = .relaunch

theorem Restarts.tail {m : Moment} {t : List Moment} (h : Restarts (m :: t)) : Restarts t :=
  fun a x y b he => h (m :: a) x y b (by rw [he]; rfl)

theorem Dev.trace_twins {cfg : Config} {es : List (Env × Event)} :
    ∀ {s s' : Dev}, s'.zui.display = s.zui.display →
      (s' = s ∨ s.Rested s' ∧ ∀ e ∈ es.head?, e.2 = .relaunch) → Restarts (s.trace cfg es) →
      List.Forall₂ Moment.Twin (s.trace cfg es) (s'.trace cfg (cutHistory es)) := by
  induction es with
  | nil => intros; exact .nil
  | cons e es ih =>
    intro s s' hd hs hr
    obtain ⟨env, ev⟩ := e
    rcases hs with rfl | ⟨hs, hrel⟩
    · refine .cons ⟨rfl, ?_, .inl rfl⟩ (ih ?_ ?_ hr.tail)
      · rcases Dev.step_cut_where (s := s') (env := env) cfg ev with h | ⟨h0, h1, h2, h3, h4, h5⟩
        · exact congrArg (fun r : Dev × Output => r.2.sig) h
        · exact h3.trans h2.symm
      · exact (Dev.step_display ..).trans (Dev.step_display ..).symm
      · rcases Dev.step_cut_where (s := s') (env := env) cfg ev with h | ⟨h0, h1, h2, h3, h4, h5⟩
        · exact .inl (congrArg Prod.fst h)
        · refine .inr ⟨h4, fun e he => ?_⟩
          cases es with
          | nil => cases he
          | cons e' es =>
            cases he
            exact hr [] _ _ _ rfl h0 h1
    · have : ev = .relaunch := hrel _ rfl
      subst this
      refine .cons ⟨rfl, rfl, .inr rfl⟩ (ih ?_ (.inl (hs.relaunch hd)) hr.tail)
      exact (Dev.step_display ..).trans (hd.trans (Dev.step_display ..).symm)

theorem twin_split {α β : Type} {R : α → β → Prop} {a : List α} {x : α} {c : List α} {l : List β}
    (h : List.Forall₂ R (a ++ x :: c) l) :
    ∃ a' x' c', l = a' ++ x' :: c' ∧ List.Forall₂ R a a' ∧ R x x' ∧ List.Forall₂ R c c' := by
  induction a generalizing l with
  | nil =>
    cases h with
    | cons h1 h2 => exact ⟨[], _, _, rfl, .nil, h1, h2⟩
  | cons y a ih =>
    cases h with
    | cons h1 h2 =>
      obtain ⟨a', x', c', rfl, h3, h4, h5⟩ := ih h2
      exact ⟨_ :: a', x', c', rfl, .cons h1 h3, h4, h5⟩

/-! ### C116 -/

/-- Two events of a history, in that order, with no reset and no approved setup in between, as in `Between`; but writes
of the watermark may also fail with an exception, and after each of the two words that a failing write is answered with
the app is restarted (if the event is one at which the watermark can be written). -/
structure BetweenRestarts (cfg : Config) (new : NewDevice) (es : List (Env × Event)) (m1 m2 : Moment) : Prop where
  detected : ∀ e ∈ es, e.1.mainF.Detected
  short : es.length < 2 ^ 64
  restarts : Restarts ((Dev.factory new).trace cfg es)
  split : ∃ a b c, (Dev.factory new).trace cfg es = a ++ m1 :: (b ++ m2 :: c) ∧
    ∀ m ∈ b, ¬ Overrides cfg m.st m.ev

/-- The two events in the history with power losses. -/
theorem BetweenRestarts.twins {cfg : Config} {new : NewDevice} {es : List (Env × Event)} {m1 m2 : Moment}
    (h : BetweenRestarts cfg new es m1 m2) :
    ∃ m1' m2', Between cfg new (cutHistory es) m1' m2' ∧ m1'.out.sig = m1.out.sig ∧ m2'.out.sig = m2.out.sig := by
  obtain ⟨hd, hs, hr, a, b, c, ht, ho⟩ := h
  have hf := Dev.trace_twins (cfg := cfg) (es := es) (s := Dev.factory new) rfl (.inl rfl) hr
  rw [ht] at hf
  obtain ⟨a', m1', l, e1, -, t1, hf⟩ := twin_split hf
  obtain ⟨b', m2', c', rfl, hb, t2, -⟩ := twin_split hf
  refine ⟨m1', m2', ⟨?_, by simpa [cutHistory] using hs, a', b', c', e1, ?_⟩, t1.sig, t2.sig⟩
  · intro e he
    obtain ⟨e0, he0, rfl⟩ := List.mem_map.mp he
    have := hd e0 he0
    unfold Env.cutMain
    cases hm : e0.1.mainF with
    | done => simp [hm, Fate.Sound]
    | powerLoss l => rw [hm] at this; simp only [hm]; exact this
    | fails l => rw [hm] at this; exact this
  · clear * - hb ho
    induction hb with
    | nil => intro m hm; cases hm
    | cons h1 _ ih =>
      intro m hm
      rcases List.mem_cons.mp hm with rfl | hm
      · rcases h1.st with h | h
        · rw [h, h1.ev]; exact ho _ List.mem_cons_self
        · rw [h1.ev, h]
          intro hov
          cases hov with
          | reset _ _ h => cases h.ev
          | setup _ _ _ _ _ h => cases h.ev
      · exact ih (fun m h => ho m (List.mem_cons_of_mem _ h)) m hm

/-- C116: the host is told. Where the write of the watermark may fail at an event, the event goes as if it could not, or
is answered with 0x6400 or 0x9001 and without a signature; then a restart finds in the flash what it finds after a power
loss. This concerns only requests with the instructions 0x04, 0x06, 0x0F and 0xAF, and the approval of a review. -/
theorem C116_told (cfg : Config) (s : Dev) (env : Env) (ev : Event) (l : PageLeft) (h : env.mainF = .fails l) :
    (s.step cfg env ev = s.step cfg { env with mainF := .powerLoss l } ev) ∨
    (ev.MayWrite ∧
      ((s.step cfg env ev).2.reply = some [0x64, 0x00] ∨ (s.step cfg env ev).2.reply = some [0x90, 0x01]) ∧
      (s.step cfg env ev).2.sig = none ∧
      (s.step cfg env ev).1.relaunch = (s.step cfg { env with mainF := .powerLoss l } ev).1.relaunch) := by
  have hc : env.cutMain = { env with mainF := .powerLoss l } := by unfold Env.cutMain; rw [h]
  rcases Dev.step_cut_where (s := s) (env := env) cfg ev with h | ⟨h0, h1, h2, h3, h4, h5⟩
  · rw [hc] at h; exact .inl h.symm
  · rw [hc] at h4
    have e1 : statusWord .executionError = [0x64, 0x00] := by decide +kernel
    have e2 : statusWord .busy = [0x90, 0x01] := by decide +kernel
    unfold Output.Trouble at h1
    rw [e1, e2] at h1
    refine .inr ⟨h0, h1, h2, (h4.relaunch ?_).symm⟩
    exact (Dev.step_display ..).trans (Dev.step_display ..).symm

/-- C116: bakers that restart the app when 0x6400 or 0x9001 is the answer to one of these get signatures in strictly
increasing order, although writes of the watermark fail. -/
theorem C116_restart_protects (cfg : Config) (new : NewDevice) (es : List (Env × Event)) (m1 m2 : Moment)
    (hb : BetweenRestarts cfg new es m1 m2) (x1 x2 : SigRec) (h1 : m1.out.sig = some x1) (h2 : m2.out.sig = some x2)
    (c1 : isConsensusMagic x1.msg = true) (c2 : isConsensusMagic x2.msg = true) :
    ∃ i1 i2, consensusItem x1.msg = some i1 ∧ consensusItem x2.msg = some i2 ∧ Item.lt i1 i2 := by
  obtain ⟨m1', m2', hb', e1, e2⟩ := hb.twins
  exact C01_consensus_signatures_increase cfg new _ m1' m2' hb' x1 x2 (e1.trans h1) (e2.trans h2) c1 c2

/-- C116: the same for the guarantee of C02. Never two Tenderbake blocks, two preendorsements or two endorsements of the
same level and round. -/
theorem C116_once (cfg : Config) (new : NewDevice) (es : List (Env × Event)) (m1 m2 : Moment)
    (hb : BetweenRestarts cfg new es m1 m2) (x1 x2 : SigRec) (h1 : m1.out.sig = some x1) (h2 : m2.out.sig = some x2)
    (c1 : isConsensusMagic x1.msg = true) (c2 : isConsensusMagic x2.msg = true) :
    consensusItem x1.msg ≠ consensusItem x2.msg := by
  obtain ⟨i1, i2, e1, e2, hlt⟩ := C116_restart_protects cfg new es m1 m2 hb x1 x2 h1 h2 c1 c2
  rw [e1, e2]
  intro h
  cases h
  exact Item.lt_irrefl _ hlt

/-- Two calls of the client as in `TwoCalls`, where writes of the watermark may fail and the app is restarted then. -/
structure TwoCallsRestarts (cfg : Config) (new : NewDevice) (es : List (Env × Event)) (t1 t2 : List Moment) : Prop where
  full : new.upload.length = uploadCapacity
  good : ∀ e ∈ es, Good e.1 e.2
  sized : ∀ e ∈ es, e.1.cr.Sized
  detected : ∀ e ∈ es, e.1.mainF.Detected
  short : es.length < 2 ^ 64
  restarts : Restarts ((Dev.factory new).trace cfg es)
  split : ∃ past mid rest, (Dev.factory new).trace cfg es = past ++ (t1 ++ (mid ++ (t2 ++ rest))) ∧
    ∀ m ∈ t1 ++ (mid ++ t2), ¬ Overrides cfg m.st m.ev

/-- C116: the same as the software of a baker sees it (C101). If two calls of the client for signatures of consensus
messages both return success, the message of the later one is about a strictly higher item. -/
theorem C116_baker (cfg : Config) (new : NewDevice) (es : List (Env × Event)) (t1 t2 : List Moment)
    (h : TwoCallsRestarts cfg new es t1 t2) (js : Js) (hjs : js.ReadsDecimal) (path1 path2 : Bytes)
    (cs1 cs2 : List Component) (hp1 : IsPathText path1 cs1) (hp2 : IsPathText path2 cs2) (curve1 curve2 : UInt8)
    (message1 message2 : Bytes) (b1 b2 : UInt8) (call1 call2 : Client SignResponse)
    (hc1 : SigningRequest js path1 curve1 message1 b1 call1) (hc2 : SigningRequest js path2 curve2 message2 b2 call2)
    (r1 r2 : SignResponse) (ht1 : Talk call1 t1 r1) (ht2 : Talk call2 t2 r2)
    (hm1 : isConsensusMagic (b1 :: message1) = true) (hm2 : isConsensusMagic (b2 :: message2) = true)
    (hr1 : r1.returnCode = 0x9000) (hr2 : r2.returnCode = 0x9000) :
    ∃ i1 i2, consensusItem (b1 :: message1) = some i1 ∧ consensusItem (b2 :: message2) = some i2 ∧ Item.lt i1 i2 := by
  obtain ⟨hu, hg, hz, hs, hl, hre, past, mid, rest, hsp, ho⟩ := h
  rcases C62_signing cfg new hu es hg hz past t1 (mid ++ (t2 ++ rest)) hsp js hjs path1 cs1 hp1 curve1 message1 b1 call1
    hc1 r1 ht1 with ⟨h1, -⟩ | ⟨-, x1, s1, e1, -⟩
  · exact absurd hr1 h1
  have hsp2 : (Dev.factory new).trace cfg es = (past ++ t1 ++ mid) ++ (t2 ++ rest) := by
    rw [hsp]; simp only [List.append_assoc]
  rcases C62_signing cfg new hu es hg hz (past ++ t1 ++ mid) t2 rest hsp2 js hjs path2 cs2 hp2 curve2 message2 b2 call2
    hc2 r2 ht2 with ⟨h2, -⟩ | ⟨-, x2, s2, e2, -⟩
  · exact absurd hr2 h2
  obtain ⟨a1, m1, z1, rfl, g1⟩ := sigsOf_single s1
  obtain ⟨a2, m2, z2, rfl, g2⟩ := sigsOf_single s2
  have hb : BetweenRestarts cfg new es m1 m2 := by
    refine ⟨hs, hl, hre, past ++ a1, z1 ++ (mid ++ a2), z2 ++ rest, ?_, ?_⟩
    · rw [hsp]; simp only [List.append_assoc, List.cons_append]
    · intro m hm
      apply ho
      simp only [List.mem_append, List.mem_cons] at hm ⊢
      rcases hm with hm | hm | hm
      · exact .inl (.inr (.inr hm))
      · exact .inr (.inl hm)
      · exact .inr (.inr (.inl hm))
  have := C116_restart_protects cfg new es m1 m2 hb x1 x2 g1 g2 (by rw [e1]; exact hm1) (by rw [e2]; exact hm2)
  rw [e1, e2] at this
  exact this

namespace Demo

/-- Each of the two words is followed by a restart, as a check. -/
def restartsB : List Moment → Bool
  | m :: m' :: t =>
    (!decide m.ev.MayWrite ||
      (m.out.reply != some (statusWord .executionError) && m.out.reply != some (statusWord .busy)) ||
      (match m'.ev with | .relaunch => true | _ => false)) && restartsB (m' :: t)
  | _ => true

theorem restartsB_spec : ∀ {t : List Moment}, restartsB t = true → Restarts t := by
  intro t
  induction t with
  | nil => intro _ a m m' b he _; simp at he
  | cons x t ih =>
    intro h a m m' b he hw ht
    cases t with
    | nil =>
      have := congrArg List.length he
      simp only [List.length_cons, List.length_nil, List.length_append] at this
      omega
    | cons y t =>
      simp only [restartsB, Bool.and_eq_true, Bool.or_eq_true, bne_iff_ne] at h
      cases a with
      | nil =>
        cases he
        rcases h.1 with (h | h) | h
        · simp [hw] at h
        · rcases ht with ht | ht
          · exact absurd ht h.1
          · exact absurd ht h.2
        · revert h
          cases m'.ev <;> simp
      | cons z a =>
        exact ih h.2 a m m' b (List.cons.inj he).2 hw ht

/-- The history of `rollback` with a restart after the failing write, and a block of level 14 at the end. -/
def recovered : List (Env × Event) :=
  rollback.take 24 ++ [(fine, .relaunch)] ++ rollback.drop 24 ++ sign (emmyBlock 14)

set_option maxRecDepth 100000 in
/-- Without the restart the second block of level 13 is signed. With it the block is refused, and the next level is
signed. -/
example :
    ((fresh.trace bakingApp rollback)[25]?.bind itemOf) = some ⟨0, 13, 0, 0⟩ ∧
    ((fresh.trace bakingApp recovered)[21]?.bind itemOf) = some ⟨0, 13, 0, 0⟩ ∧
    ((fresh.trace bakingApp recovered)[23]?.map fun m => m.out.reply) = some (some [0x64, 0x00]) ∧
    ((fresh.trace bakingApp recovered)[26]?.map fun m => m.out.reply) = some (some (statusWord .dataInvalid)) ∧
    ((fresh.trace bakingApp recovered)[28]?.bind itemOf) = some ⟨0, 14, 0, 0⟩ := by
  decide +kernel

set_option maxRecDepth 100000 in
/-- The hypotheses of C116 hold for the blocks of levels 13 and 14 of `recovered`, with the failing write in between. -/
example : ∃ m1 m2 x1 x2, BetweenRestarts bakingApp ⟨.small, []⟩ recovered m1 m2 ∧
    m1.out.sig = some x1 ∧ m2.out.sig = some x2 ∧ isConsensusMagic x1.msg = true ∧ isConsensusMagic x2.msg = true := by
  obtain ⟨m1, m2, h1, h2, h⟩ := two_moments (es := recovered) (i := 21) (j := 28)
    (P := fun m1 m2 => decide (m1.out.sig.map (fun x => isConsensusMagic x.msg) = some true ∧
      m2.out.sig.map (fun x => isConsensusMagic x.msg) = some true)) (by decide +kernel)
  simp only [decide_eq_true_eq, Option.map_eq_some_iff] at h
  obtain ⟨⟨x1, e1, c1⟩, x2, e2, c2⟩ := h
  exact ⟨m1, m2, x1, x2, ⟨by decide +kernel, by decide +kernel, restartsB_spec (by decide +kernel), _, _, _,
    split_at h1 h2 (by omega), by decide +kernel⟩, e1, e2, c1, c2⟩

/-- A baker asks for a block, then for another of the next level, at which the write of the watermark fails, restarts the
app, and asks again for the second and for the first. -/
def bakerRestarts : List (Env × Event) :=
  setup 10 ++ ok [apdu 0xAF 0 0 keyPath, apdu 0xAF 2 0 (tbBlock 11 0), apdu 0xAF 0 0 keyPath] ++
  [({ fine with mainF := .fails .unchanged }, apdu 0xAF 2 0 (tbBlock 12 0))] ++
  ok [.relaunch, apdu 0xAF 0 0 keyPath, apdu 0xAF 2 0 (tbBlock 12 0), apdu 0xAF 0 0 keyPath,
    apdu 0xAF 2 0 (tbBlock 11 0 1)]

set_option maxRecDepth 100000 in
/-- Satisfiable: the first call returns success, the second fails with 0x6400, after the restart the same call returns
success, and another block of the first level is refused. -/
example :
    let t := (Dev.factory ⟨.small, List.replicate uploadCapacity 0⟩).trace bakingApp bakerRestarts
    let ask := fun (t : List Moment) (m : Bytes) =>
      ((signBaker js pathText 0 (m.drop 1) .blocklevel).bind fun c => play t (.inl c)).map (·.returnCode)
    ask ((t.drop 8).take 2) (tbBlock 11 0) = some 0x9000 ∧
    ask ((t.drop 10).take 2) (tbBlock 12 0) = some 0x6400 ∧
    ask ((t.drop 13).take 2) (tbBlock 12 0) = some 0x9000 ∧
    ask ((t.drop 15).take 2) (tbBlock 11 0 1) = some 0x6984 ∧
    (∀ e ∈ bakerRestarts, e.1.mainF.Detected) ∧ restartsB t = true ∧
    (∀ m ∈ t.drop 8, ¬ Overrides bakingApp m.st m.ev) := by
  decide +kernel

end Demo

end Tezos
