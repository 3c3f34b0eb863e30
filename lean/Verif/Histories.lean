import Verif.Steps
import Verif.Cell
/-
Histories of the device: the events with the states before them and what was seen, the invariants that hold along
them, and what a signature says about the event that produced it.
-/
set_option linter.unusedSimpArgs false
namespace Tezos
open Spec (Item consensusItem isConsensusMagic)

/-! ### Histories -/

/-- An event of a history: the state before it, the outside world, the event and what was seen. -/
structure Moment where
  st : Dev
  env : Env
  ev : Event
  out : Output

/-- The state after the event. -/
def Moment.next (cfg : Config) (m : Moment) : Dev := (m.st.step cfg m.env m.ev).1

/-- The history of a run from `s`. -/
def Dev.trace (cfg : Config) (s : Dev) : List (Env × Event) → List Moment
  | [] => []
  | (env, ev) :: es => ⟨s, env, ev, (s.step cfg env ev).2⟩ :: (s.step cfg env ev).1.trace cfg es

theorem Dev.run_append (cfg : Config) (s : Dev) (a b : List (Env × Event)) :
    (s.run cfg (a ++ b)).1 = ((s.run cfg a).1.run cfg b).1 := by
  induction a generalizing s with
  | nil => rfl
  | cons x xs ih => exact ih _

theorem Dev.trace_outputs (cfg : Config) (s : Dev) (es : List (Env × Event)) :
    (s.run cfg es).2 = (s.trace cfg es).map Moment.out := by
  induction es generalizing s with
  | nil => rfl
  | cons x xs ih =>
    simp only [Dev.run, Dev.trace, List.map_cons, List.cons.injEq]
    exact ⟨trivial, ih _⟩

/-- Splitting a history at an event. -/
theorem Dev.trace_split {cfg : Config} {s : Dev} {es : List (Env × Event)} {a b : List Moment} {m : Moment}
    (h : s.trace cfg es = a ++ m :: b) :
    ∃ ea eb, es = ea ++ (m.env, m.ev) :: eb ∧ ea.length = a.length ∧ a = s.trace cfg ea ∧ m.st = (s.run cfg ea).1 ∧
      m.out = (m.st.step cfg m.env m.ev).2 ∧ b = (m.next cfg).trace cfg eb := by
  induction a generalizing s es with
  | nil =>
    cases es with
    | nil => simp [Dev.trace] at h
    | cons x xs =>
      simp only [Dev.trace, List.nil_append, List.cons.injEq] at h
      obtain ⟨rfl, rfl⟩ := h
      exact ⟨[], xs, rfl, rfl, rfl, rfl, rfl, rfl⟩
  | cons y ys ih =>
    cases es with
    | nil => simp [Dev.trace] at h
    | cons x xs =>
      simp only [Dev.trace, List.cons_append, List.cons.injEq] at h
      obtain ⟨rfl, h⟩ := h
      obtain ⟨ea, eb, rfl, hl, rfl, hst, hout, hb⟩ := ih h
      exact ⟨x :: ea, eb, rfl, by simp [hl], rfl, hst, hout, hb⟩

/-! ### Pending reviews -/

/-- What is known of a pending review: a message to sign starts with 0x03 or 0x05, and the key of an authorization or
a setup has at most ten components. -/
def View.Ok : View → Prop
  | .sign _ _ _ m => m[0]? = some 0x03 ∨ m[0]? = some 0x05
  | .bakingSign _ _ _ _ m => m[0]? = some 0x03
  | .authorize k _ => 1 ≤ k.path.length ∧ k.path.length ≤ 10
  | .setup k _ _ _ _ => 1 ≤ k.path.length ∧ k.path.length ≤ 10
  | _ => True

/-- The digest of a pending review is that of its message. -/
def View.Hashed (H : Bytes → Option Bytes) : View → Prop
  | .sign _ d _ m => H m = some d
  | .bakingSign _ d _ _ m => H m = some d
  | _ => True

theorem Opens.ok {env : Env} {s : Dev} {p1 p2 : UInt8} {payload : Option Bytes} {c : Cmd}
    {v : View} {p : Option (Path × Curve)} {u : Upl} (h : Opens env s p1 p2 payload c v p u) : v.Ok := by
  cases h with
  | operation hu hc hp hd ho => exact .inl rfl
  | michelson hu hc hp hd => exact .inr rfl
  | baking hu hc hp hk hd ho hn hop => rfl
  | addr => trivial
  | authorize h1 hc hp hr ha => exact ⟨(Path.read_ok.mp hr).1, (Path.read_ok.mp hr).2.1⟩
  | deauthorize => trivial
  | query => trivial
  | setup hc hp hl hn hr ha => exact ⟨(Path.read_ok.mp hr).1, (Path.read_ok.mp hr).2.1⟩

theorem Opens.hashed {env : Env} {s : Dev} {p1 p2 : UInt8} {payload : Option Bytes} {c : Cmd}
    {v : View} {p : Option (Path × Curve)} {u : Upl} (h : Opens env s p1 p2 payload c v p u) :
    v.Hashed (env.cr.blake2b 32) := by
  cases h with
  | operation hu hc hp hd ho => exact hd
  | michelson hu hc hp hd => exact hd
  | baking hu hc hp hk hd ho hn hop => exact hd
  | _ => trivial

/-- The pending review, if any, has property `P`. -/
def Dev.Pending (P : View → Prop) (s : Dev) : Prop := ∀ v, s.view = some v → P v

/-- A property of all opened reviews is one of the pending review. -/
theorem Dev.Pending.step {P : View → Prop} {cfg : Config} {env : Env} {ev : Event} {s : Dev}
    (hP : ∀ p1 p2 payload c v p u, Opens env s p1 p2 payload c v p u → P v) (h : s.Pending P) :
    (s.step cfg env ev).1.Pending P := by
  intro v hv
  rcases s.step_view cfg env ev with h' | h' | ⟨w, hw⟩
  · exact h v (by rw [← h', hv])
  · rw [h'] at hv
    cases hv
  · obtain ⟨buf, rx, c, p, u, hr, ho, _⟩ := hw.ex
    rw [hw.view] at hv
    cases hv
    exact hP _ _ _ _ _ _ _ ho

theorem Dev.Pending.factory (P : View → Prop) (u : NewDevice) : (Dev.factory u).Pending P := by
  intro v hv
  cases hv

/-- The pending review, if any, is `Ok`. -/
abbrev Dev.Ok (s : Dev) : Prop := s.Pending View.Ok

theorem Dev.Ok.step {cfg : Config} {env : Env} {ev : Event} {s : Dev} (h : s.Ok) : (s.step cfg env ev).1.Ok :=
  Dev.Pending.step (fun _ _ _ _ _ _ _ ho => ho.ok) h

theorem Dev.Ok.factory (u : NewDevice) : (Dev.factory u).Ok := Dev.Pending.factory _ u

theorem Dev.Ok.run {cfg : Config} {s : Dev} {es : List (Env × Event)} (h : s.Ok) : (s.run cfg es).1.Ok := by
  induction es generalizing s with
  | nil => exact h
  | cons x xs ih => exact ih h.step

/-- The digest of the pending review, if any, is that of its message. -/
theorem Dev.hashed_run {H : Bytes → Option Bytes} {cfg : Config} {s : Dev} {es : List (Env × Event)}
    (hH : ∀ e ∈ es, e.1.cr.blake2b 32 = H) (h : s.Pending (View.Hashed H)) :
    (s.run cfg es).1.Pending (View.Hashed H) := by
  induction es generalizing s with
  | nil => exact h
  | cons x xs ih =>
    refine ih (fun e he => hH e (by simp [he])) (h.step fun _ _ _ _ _ _ _ ho => ?_)
    have := ho.hashed
    rwa [hH x (by simp)] at this

/-! ### Signatures -/

/-- How a signature came about. -/
inductive Signed (cfg : Config) (env : Env) (ev : Event) (s s' : Dev) (out : Output) (x : SigRec) : Prop where
  | review (h : Bool) (p : Option MemRef) (ha : Approves s ev (.sign h x.digest p x.msg))
      (hp : s.path = some (x.path, x.curve)) (hs : env.cr.sign x.curve x.path x.digest = some x.sig)
      (hr : out.reply = some (sigReply h x.digest x.sig ++ statusWord .success))
      (hst : SameFlash s s')
  | delegation (h : Bool) (ref : MemRef) (op : Op) (ha : Approves s ev (.bakingSign h x.digest ref op x.msg))
      (hk : s.storedKey = some ⟨x.curve, x.path⟩) (hs : env.cr.sign x.curve x.path x.digest = some x.sig)
      (hr : out.reply = some (sigReply h x.digest x.sig ++ statusWord .success))
      (hst : SameFlash s s')
  | consensus (h : Bool) (buf : Bytes) (rx : Nat) (hrec : Received cfg s ev buf rx (.bakerSign h))
      (u : Upl) (q2 : UInt8) (first : Bytes) (ref : MemRef)
      (hu : Completes env s .baking (buf.getD 2 0) (buf.getD 3 0) (apduPayload buf) u q2 first x.msg ref)
      (hcv : Curve.ofByte q2 = some x.curve) (hp : Path.read bip32MaxLength first = .ok x.path)
      (hk : s.storedKey = some ⟨x.curve, x.path⟩) (hd : env.cr.blake2b 32 x.msg = some x.digest)
      (hs : env.cr.sign x.curve x.path x.digest = some x.sig)
      (hr : out.reply = some (sigReply h x.digest x.sig ++ statusWord .success))
      (b : Bytes) (it : Item) (hb : s.main.read = .ok b) (hi : consensusItem x.msg = some it)
      (hl : it.level < 2 ^ 31) (hlt : Item.lt (WaterMark.decode b).item it)
      (hw : (s.main.write env.mainF (WaterMark.ofItem it).encode).2 = .ok)
      (hm : s'.main = (s.main.write env.mainF (WaterMark.ofItem it).encode).1)
      (hrest : s'.test = s.test ∧ s'.chain = s.chain ∧ s'.key = s.key)

theorem specDecide_ok {m : Bytes} {hw w : WaterMark} (h : specDecide m hw = .ok w) :
    ∃ it, consensusItem m = some it ∧ it.level < 2 ^ 31 ∧ Item.lt hw.item it ∧ w = WaterMark.ofItem it := by
  unfold specDecide at h
  split at h
  · cases h
  · rename_i it hi
    split at h
    · rename_i hc
      cases h
      exact ⟨it, hi, hc.1, hc.2, rfl⟩
    · cases h

theorem Res.deliver_none {r : Res} (h : r.sig = none) : r.deliver.2.sig = none := by
  cases hx : r.deliver.2.sig with
  | none => rfl
  | some x =>
    obtain ⟨h', _⟩ := Res.deliver_sig hx
    rw [h] at h'
    cases h'

theorem Dev.step_signed {cfg : Config} {env : Env} {ev : Event} {s : Dev} {x : SigRec}
    (h : (s.step cfg env ev).2.sig = some x) :
    Signed cfg env ev s (s.step cfg env ev).1 (s.step cfg env ev).2 x := by
  cases s.step_cases cfg env ev with
  | still _ hs => rw [hs] at h; cases h
  | relaunch _ _ hs => rw [hs] at h; cases h
  | accept v ha hfl hs hr =>
    rw [hs] at h
    have hsig := (Res.deliver_sig h).1
    obtain ⟨data, hdata, hrep⟩ := (Res.deliver_sig h).2
    cases v with
    | sign hh d p m =>
      cases View.accept_sign env hh d p m s.idle with
      | bad hst hb => rw [hb.1] at hsig; cases hsig
      | done path curve sig hp hsg hre =>
        rw [hre] at hsig hfl hrep hdata
        simp only [Option.some.injEq] at hsig
        simp only [HRes.ok.injEq] at hdata
        rw [← hre] at hrep
        subst hsig
        exact .review hh p ha hp hsg (by rw [hr, hrep, ← hdata]) ⟨hfl.1, hfl.2, hfl.3, hfl.4⟩
    | bakingSign hh d b o m =>
      rcases s.idle.bakingSign_cases env hh d m with hf | ⟨k, sig, hk, hsg, hre⟩
      · have : (View.accept env (.bakingSign hh d b o m) s.idle).sig = none := hf.2.1
        rw [this] at hsig
        cases hsig
      · have hre : View.accept env (.bakingSign hh d b o m) s.idle = _ := hre
        rw [hre] at hsig hfl hrep hdata
        simp only [Option.some.injEq] at hsig
        simp only [HRes.ok.injEq] at hdata
        rw [← hre] at hrep
        subst hsig
        exact .delegation hh b o ha hk hsg (by rw [hr, hrep, ← hdata]) (s.idle_flash.trans hfl)
    | addr a k w => rw [(View.accept_addr env a k w s.idle).2.1] at hsig; cases hsig
    | query k a w => rw [(View.accept_query env k a w s.idle).2.1] at hsig; cases hsig
    | authorize k a =>
      cases View.accept_authorize env k a s.idle with
      | none _ hb => rw [hb.1] at hsig; cases hsig
      | key _ _ hb => rw [hb.1] at hsig; cases hsig
      | done _ _ hs' _ => rw [hs'] at hsig; cases hsig
    | deauthorize a =>
      cases View.accept_deauthorize env a s.idle with
      | key _ _ hb => rw [hb.1] at hsig; cases hsig
      | done _ _ hs' _ => rw [hs'] at hsig; cases hsig
    | setup k a m t ch =>
      cases View.accept_setup env k a m t ch s.idle with
      | none _ hb => rw [hb.1] at hsig; cases hsig
      | key _ _ hb => rw [hb.1] at hsig; cases hsig
      | main _ _ _ hb => rw [hb.1] at hsig; cases hsig
      | test _ _ _ _ hb => rw [hb.1] at hsig; cases hsig
      | chain _ _ _ _ h' =>
        rcases h' with ⟨_, hb⟩ | ⟨_, hb, _⟩
        · rw [hb.1] at hsig; cases hsig
        · rw [hb] at hsig; cases hsig
  | command buf rx c hrec he =>
    have he : s.step cfg env ev = _ := he.symm
    rw [he] at h ⊢
    have hsig := (Res.deliver_sig h).1
    obtain ⟨data, hdata, hrep⟩ := (Res.deliver_sig h).2
    cases s.exec_cases cfg env c (buf.getD 2 0) (buf.getD 3 0) (apduPayload buf) with
    | still p u hs _ => rw [hs.2.1] at hsig; cases hsig
    | opened v p u u' ho hout hs hst _ => rw [hs] at hsig; cases hsig
    | reset p hc hp hl hr =>
      rw [hr] at hsig
      cases s.resetHwm_cases env (u32OfBe (p.take 4)) with
      | main _ _ hb => rw [hb.1] at hsig; cases hsig
      | test _ _ _ hb => rw [hb.1] at hsig; cases hsig
      | chain _ _ _ h' =>
        rcases h' with ⟨_, hb⟩ | ⟨_, _, _, hb⟩
        · rw [hb.1] at hsig; cases hsig
        · rw [hb] at hsig; cases hsig
      | init _ _ _ _ h' =>
        rcases h' with ⟨_, hb⟩ | ⟨_, _, hb⟩
        · rw [hb.1] at hsig; cases hsig
        · rw [hb] at hsig; cases hsig
    | auto hh u u' q2 first m ref k digest hc hu hcv hp hk hd hm hout hs hst =>
      subst hc
      have hfl := (s.exec cfg env (.bakerSign hh) (buf.getD 2 0) (buf.getD 3 0) (apduPayload buf)).deliver_flash
      rcases (s.withUpload s.path u).autoSign_cases env hh digest m (specDecide m)
        (fun _ _ => specDecide_error) with
        hf | ⟨b, w, hb, hdec, hf | ⟨hw, k', sig, hk', hsg, hre⟩⟩
      · rw [hs, hf.2.1] at hsig; cases hsig
      · rw [hs, hf.2.1] at hsig; cases hsig
      · rw [hs, hre] at hsig
        rw [hout, hre] at hdata
        rw [hst, hre] at hfl
        simp only [Option.some.injEq] at hsig
        simp only [HRes.ok.injEq] at hdata
        have hkk : k' = k := by
          have h1 : s.storedKey = some k' := hk'
          rw [hk] at h1
          exact (Option.some.inj h1).symm
        subst hkk
        obtain ⟨it, hi, hl, hlt, rfl⟩ := specDecide_ok hdec
        subst hsig
        exact .consensus hh buf rx hrec u q2 first ref hu hcv hp hk hd hsg (by rw [hrep, ← hdata]) b it hb hi hl hlt
          hw hfl.1 ⟨hfl.2, hfl.3, hfl.4⟩

/-! ### The main watermark -/

/-- Events that may lower the watermark: a reset command, or approving a setup. -/
inductive Overrides (cfg : Config) (s : Dev) (ev : Event) : Prop where
  | reset (buf : Bytes) (rx : Nat) (h : Received cfg s ev buf rx .reset)
  | setup (k : PathAndCurve) (a : Addr) (m t : UInt32) (ch : ChainID) (h : Approves s ev (.setup k a m t ch))

/-- What one event does to the main watermark. -/
inductive MainStep (cfg : Config) (env : Env) (ev : Event) (s : Dev) (out : Output) (c c' : Cell) : Prop where
  | same (hc : c' = c) (hs : ∀ x, out.sig = some x → isConsensusMagic x.msg = false)
  | override (ho : Overrides cfg s ev) (level : UInt32) (hc : c' = c ∨ c' = .val (hwmBytes level) ∨ c' = .broken)
      (hs : out.sig = none)
  | advance (b : Bytes) (m : Bytes) (it : Item) (hb : c = .val b) (hi : consensusItem m = some it)
      (hl : it.level < 2 ^ 31) (hlt : Item.lt (WaterMark.decode b).item it)
      (hc : c' = c ∨ c' = .val (WaterMark.ofItem it).encode ∨ c' = .broken)
      (hs : ∀ x, out.sig = some x → x.msg = m ∧ c' = .val (WaterMark.ofItem it).encode ∧ env.mainF = .done)

theorem Cell.Reads.ok {c : Cell} {b : Bytes} (h : c.Reads (.ok b)) : c = .val b := by
  cases c with
  | blank => cases h
  | val v => cases h; rfl
  | broken => rcases h with h | h <;> cases h

theorem Cell.Writes.cases {c c' : Cell} {b : Bytes} {r : WriteRes} (h : c.Writes b r c') :
    c' = c ∨ c' = .val b ∨ c' = .broken := by
  rcases h with ⟨_, h⟩ | ⟨_, h⟩
  · exact .inr (.inl h)
  · exact h

theorem Dev.autoSign_sig_msg {env : Env} {h : Bool} {digest m : Bytes} {dec : WaterMark → Except HErr WaterMark}
    {s : Dev} {x : SigRec} (hdec : ∀ hw e, dec hw = .error (.err e) → e ≠ .success) (hx : (s.autoSign env h digest m dec).sig = some x) : x.msg = m := by
  rcases s.autoSign_cases env h digest m dec hdec with hf | ⟨b, w, hb, hdec, hf | ⟨hw, k', sig, hk', hsg, hre⟩⟩
  · rw [hf.2.1] at hx; cases hx
  · rw [hf.2.1] at hx; cases hx
  · rw [hre] at hx; cases hx; rfl

theorem View.accept_main (env : Env) (v : View) (s : Dev) (hv : ∀ k a m t ch, v ≠ .setup k a m t ch) :
    (v.accept env s).st.main = s.main := by
  rcases v.accept_still_or env s with h | ⟨k, a, m, t, ch, rfl⟩
  · exact h.1
  · exact absurd rfl (hv k a m t ch)

/-- What an event does to the main watermark, whatever review is pending: approving one other than a setup leaves it. -/
theorem Dev.step_main_any {cfg : Config} {env : Env} {ev : Event} {s : Dev} {n : Nat} {c : Cell}
    (h : s.main.Holds n c) (hf : env.mainF.Sound) (hn : n + 1 < 2 ^ 64) :
    ∃ c', (s.step cfg env ev).1.main.Holds (n + 1) c' ∧
      (MainStep cfg env ev s (s.step cfg env ev).2 c c' ∨ (c' = c ∧ ∃ v, Approves s ev v)) := by
  have hmono : s.main.Holds (n + 1) c := h.mono (by omega)
  have hlen : ∀ w : WaterMark, w.encode.length = slotSize := fun w => w.encode_length
  cases s.step_cases cfg env ev with
  | still hfl hs => exact ⟨c, by rw [hfl.main]; exact hmono, .inl <| .same rfl (by rw [hs]; intro x hx; cases hx)⟩
  | relaunch hfl he hs =>
    exact ⟨c, by rw [hfl.main]; exact hmono.relaunch, .inl <| .same rfl (by rw [hs]; intro x hx; cases hx)⟩
  | accept v ha hfl hs hr =>
    rcases v.accept_still_or env s.idle with hst | ⟨k, a, m, t, ch, rfl⟩
    · exact ⟨c, by rw [hfl.main, hst.1]; exact hmono, .inr ⟨rfl, v, ha⟩⟩
    · have hsn : (s.step cfg env ev).2.sig = none := by
        rw [hs]
        apply Res.deliver_none
        cases View.accept_setup env k a m t ch s.idle with
        | none _ hb => exact hb.1
        | key _ _ hb => exact hb.1
        | main _ _ _ hb => exact hb.1
        | test _ _ _ _ hb => exact hb.1
        | chain _ _ _ _ h' => exact h'.elim (fun h => h.2.1) (fun h => h.2.1)
      have hmain : (View.accept env (.setup k a m t ch) s.idle).st.main = s.main ∨
          (View.accept env (.setup k a m t ch) s.idle).st.main = (s.main.write env.mainF (hwmBytes m)).1 := by
        cases View.accept_setup env k a m t ch s.idle with
        | none hst _ => rw [hst]; exact .inl rfl
        | key _ hst _ => rw [hst]; exact .inl rfl
        | main _ _ hst _ => rw [hst]; exact .inr rfl
        | test _ _ _ hst _ => rw [hst]; exact .inr rfl
        | chain _ _ _ hst _ => rw [hst]; exact .inr rfl
      rcases hmain with hm | hm
      · exact ⟨c, by rw [hfl.main, hm]; exact hmono, .inl <| .override (.setup k a m t ch ha) m (.inl rfl) hsn⟩
      · obtain ⟨c', h1, h2, _⟩ := h.write (b := hwmBytes m) hn (hlen _) hf
        exact ⟨c', by rw [hfl.main, hm]; exact h1, .inl <| .override (.setup k a m t ch ha) m h2.cases hsn⟩
  | command buf rx cmd hrec he =>
    have hfl := (s.exec cfg env cmd (buf.getD 2 0) (buf.getD 3 0) (apduPayload buf)).deliver_flash
    have hsg : (s.step cfg env ev).2.sig = _ := congrArg (fun p => p.2.sig) he.symm
    rw [he] at hfl
    cases s.exec_cases cfg env cmd (buf.getD 2 0) (buf.getD 3 0) (apduPayload buf) with
    | still p u hs _ =>
      refine ⟨c, by rw [hfl.main, hs.1]; exact hmono, .inl <| .same rfl ?_⟩
      rw [hsg, Res.deliver_none hs.2.1]
      intro x hx
      cases hx
    | opened v p u u' ho hout hs hst _ =>
      have hm : ((s.withUpload p u).show env v).st.main = s.main := ((s.withUpload p u).show_flash env v).main
      refine ⟨c, by rw [hfl.main, hst]; show Store.Holds (((s.withUpload p u).show env v).st.main) _ _; rw [hm]; exact hmono,
        .inl <| .same rfl ?_⟩
      rw [hsg, Res.deliver_none hs]
      intro x hx
      cases hx
    | reset p hc hp hl hr =>
      subst hc
      have hmain : (s.resetHwm env (u32OfBe (p.take 4))).st.main =
          (s.main.write env.mainF (hwmBytes (u32OfBe (p.take 4)))).1 := by
        cases s.resetHwm_cases env (u32OfBe (p.take 4)) with
        | main _ hst _ => rw [hst]
        | test _ _ hst _ => rw [hst]
        | chain _ _ hst _ => rw [hst]
        | init _ _ _ hst _ => rw [hst]
      have hsn : (s.resetHwm env (u32OfBe (p.take 4))).sig = none := by
        cases s.resetHwm_cases env (u32OfBe (p.take 4)) with
        | main _ _ hb => exact hb.1
        | test _ _ _ hb => exact hb.1
        | chain _ _ _ h' => exact h'.elim (fun h => h.2.1) (fun h => h.2.2.2)
        | init _ _ _ _ h' => exact h'.elim (fun h => h.2.1) (fun h => h.2.2)
      obtain ⟨c', h1, h2, _⟩ := h.write (b := hwmBytes (u32OfBe (p.take 4))) hn (hlen _) hf
      refine ⟨c', by rw [hfl.main, hr, hmain]; exact h1, .inl <| .override (.reset buf rx hrec) _ h2.cases ?_⟩
      rw [hsg]
      exact Res.deliver_none (by rw [hr]; exact hsn)
    | auto hh u u' q2 first m ref k digest hc hu hcv hp hk hd hmg hout hs hst =>
      have hx : ∀ x, (s.step cfg env ev).2.sig = some x →
          ((s.withUpload s.path u).autoSign env hh digest m (specDecide m)).sig = some x := by
        intro x hx
        rw [hsg] at hx
        rw [← hs]
        exact (Res.deliver_sig hx).1
      rcases (s.withUpload s.path u).autoSign_cases env hh digest m (specDecide m)
        (fun _ _ => specDecide_error) with
        hfa | ⟨b, w, hb, hdec, hfa⟩
      · refine ⟨c, by rw [hfl.main, hst, hfa.1]; exact hmono, .inl <| .same rfl ?_⟩
        intro x h
        have := hx x h
        rw [hfa.2.1] at this
        cases this
      · obtain ⟨it, hi, hl, hlt, rfl⟩ := specDecide_ok hdec
        have hbr : s.main.read = .ok b := hb
        have hcb : c = .val b := (hbr ▸ h.read).ok
        obtain ⟨c', h1, h2, h3⟩ := h.write (b := (WaterMark.ofItem it).encode) hn (hlen _) hf
        have hmain : (s.step cfg env ev).1.main = (s.main.write env.mainF (WaterMark.ofItem it).encode).1 := by
          rw [hfl.main, hst]
          rcases hfa with hfa | ⟨_, _, _, _, _, hre⟩
          · rw [hfa.1]; rfl
          · rw [hre]; rfl
        refine ⟨c', by rw [hmain]; exact h1, .inl <| .advance b m it hcb hi hl hlt h2.cases ?_⟩
        intro x h
        have hx := hx x h
        refine ⟨Dev.autoSign_sig_msg (fun _ _ => specDecide_error) hx, ?_⟩
        rcases hfa with hfa | ⟨hw, _⟩
        · rw [hfa.2.1] at hx; cases hx
        · have hw : (s.main.write env.mainF (WaterMark.ofItem it).encode).2 = .ok := hw
          refine ⟨?_, h3 hw⟩
          rcases h2 with ⟨_, h2⟩ | ⟨h2, _⟩
          · exact h2
          · exact absurd hw h2

theorem Dev.step_main {cfg : Config} {env : Env} {ev : Event} {s : Dev} {n : Nat} {c : Cell}
    (hok : s.Ok) (h : s.main.Holds n c) (hf : env.mainF.Sound) (hn : n + 1 < 2 ^ 64) :
    ∃ c', (s.step cfg env ev).1.main.Holds (n + 1) c' ∧ MainStep cfg env ev s (s.step cfg env ev).2 c c' := by
  obtain ⟨c', h1, h2 | ⟨rfl, v, ha⟩⟩ := s.step_main_any (cfg := cfg) (ev := ev) h hf hn
  · exact ⟨c', h1, h2⟩
  · refine ⟨c', h1, .same rfl ?_⟩
    intro x hx
    have hsg := Dev.step_signed hx
    cases hsg with
    | review hh p ha' _ _ _ _ =>
      have h3 := hok _ ha'.view
      unfold isConsensusMagic
      rcases (h3 : _ ∨ _) with h3 | h3 <;> rw [h3] <;> rfl
    | delegation hh br op ha' _ _ _ _ =>
      have h3 := hok _ ha'.view
      unfold isConsensusMagic
      rw [(h3 : _ = _)]
      rfl
    | consensus hh buf rx hrec =>
      have := hrec.ev
      rw [ha.ev] at this
      cases this

/-- Along a run the main record holds one contents. -/
theorem Dev.run_main {cfg : Config} {s : Dev} {es : List (Env × Event)} {n : Nat} {c : Cell}
    (hok : s.Ok) (h : s.main.Holds n c) (he : ∀ e ∈ es, e.1.mainF.Sound)
    (hn : n + es.length < 2 ^ 64) : ∃ c', (s.run cfg es).1.main.Holds (n + es.length) c' := by
  induction es generalizing s n c with
  | nil => exact ⟨c, h⟩
  | cons x xs ih =>
    obtain ⟨c', h1, _⟩ := s.step_main (cfg := cfg) (ev := x.2) hok h (he x (by simp)) (by simp at hn; omega)
    obtain ⟨c'', h2⟩ := ih hok.step h1 (fun e hh => he e (by simp [hh])) (by simp at hn ⊢; omega)
    exact ⟨c'', by simpa [Dev.run, Nat.add_assoc, Nat.add_comm 1] using h2⟩

end Tezos
