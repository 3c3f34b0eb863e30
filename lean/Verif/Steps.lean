import Verif.Effects
/-
One event, seen from the records: where the pending review comes from, and what happens to the watermarks, the chain
id and the key.
-/
set_option linter.unusedSimpArgs false
namespace Tezos

/-! ### The pending review -/

theorem Res.deliver_view (r : Res) : r.deliver.1.view = r.st.view := by
  unfold Res.deliver
  split <;> rfl

theorem Dev.show_view (env : Env) (v : View) (s : Dev) :
    (s.show env v).st.view = some v ∨ (s.show env v).st.view = none := by
  unfold Dev.show
  simp only
  split
  · exact .inl rfl
  · exact .inl rfl
  · exact .inr rfl
  · exact .inl rfl
  · exact .inl rfl

theorem Dev.show_path_some (env : Env) (v : View) (s : Dev) (h : (s.show env v).st.view = some v) :
    (s.show env v).st.path = s.path := by
  unfold Dev.show at h ⊢
  simp only at h ⊢
  split
  · rfl
  · rfl
  · rename_i hr
    simp only [hr, reduceCtorEq] at h
  · rfl
  · rfl

theorem Dev.show_quiet (env : Env) (v : View) (s : Dev) (h : (s.show env v).st.view = some v) :
    (s.show env v).out = .shown none ∨ ∃ f, (s.show env v).out = .fault f := by
  unfold Dev.show at h ⊢
  simp only at h ⊢
  split
  · exact .inl rfl
  · exact .inl rfl
  · rename_i hr
    simp only [hr, reduceCtorEq] at h
  · exact .inr ⟨_, rfl⟩
  · exact .inr ⟨_, rfl⟩

theorem Dev.show_drawn (env : Env) (v : View) (s : Dev) (h : (s.show env v).st.view = some v) :
    s.zui.openReview (v.viewer env.cr s.upl.buf) = .shown (s.show env v).st.zui ∨
    (s.show env v).st.zui.screen = .error ∨ ∃ f, (s.show env v).out = .fault f := by
  unfold Dev.show at h ⊢
  simp only at h ⊢
  split
  · rename_i z hz
    exact .inl hz
  · exact .inr (.inl rfl)
  · rename_i hr
    simp only [hr, reduceCtorEq] at h
  · exact .inr (.inr ⟨_, rfl⟩)
  · exact .inr (.inr ⟨_, rfl⟩)

theorem Dev.reject_view (s : Dev) : s.reject.1.view = none := by
  unfold Dev.reject
  simp only
  split
  · assumption
  · rfl

theorem Dev.acceptError_view (s : Dev) : s.acceptError.1.view = none := by
  unfold Dev.acceptError
  simp only
  split
  · assumption
  · rfl

theorem Dev.onError_view (s : Dev) (c : Bool) (f : XError → XError) :
    (s.onError c f).1.view = s.view ∨ (s.onError c f).1.view = none := by
  unfold Dev.onError
  split
  · exact .inr s.acceptError_view
  · exact .inl rfl

theorem Dev.approve_view (env : Env) (s : Dev) : (s.approve env).1.view = none := by
  unfold Dev.approve
  simp only
  split
  · assumption
  · rfl

theorem Dev.redraw_view (u : Upd) (s : Dev) : (s.redraw u).1.view = s.view ∨ (s.redraw u).1.view = none := by
  unfold Dev.redraw
  cases u with
  | rejected z => exact .inr (Dev.reject_view _)
  | _ => exact .inl rfl

theorem Dev.pressBoth_view (env : Env) (s : Dev) :
    (s.pressBoth env).1.view = s.view ∨ (s.pressBoth env).1.view = none := by
  unfold Dev.pressBoth
  simp only
  have jump : ∀ (r : Dev × Output), (r.1.view = s.view ∨ r.1.view = none) →
      ((if r.1.running = true ∧ r.1.zui.jumps = true then
        ((r.1.redraw (r.1.zui.expertJump (r.1.viewer env))).1,
          (⟨r.2.reply <|> (r.1.redraw (r.1.zui.expertJump (r.1.viewer env))).2.reply, r.2.sig,
            r.2.fault <|> (r.1.redraw (r.1.zui.expertJump (r.1.viewer env))).2.fault⟩ : Output))
        else r).1.view = s.view ∨
      (if r.1.running = true ∧ r.1.zui.jumps = true then
        ((r.1.redraw (r.1.zui.expertJump (r.1.viewer env))).1,
          (⟨r.2.reply <|> (r.1.redraw (r.1.zui.expertJump (r.1.viewer env))).2.reply, r.2.sig,
            r.2.fault <|> (r.1.redraw (r.1.zui.expertJump (r.1.viewer env))).2.fault⟩ : Output))
        else r).1.view = none) := by
    intro r hr
    split
    · rcases r.1.redraw_view (r.1.zui.expertJump (r.1.viewer env)) with h | h
      · rw [h]
        exact hr
      · exact .inr h
    · exact hr
  split
  · exact jump _ (.inr (s.approve_view env))
  · exact jump _ (.inr s.reject_view)
  · exact jump _ (.inl rfl)

/-- The review `v` is opened by this event: by which command, what it left behind, and that nothing was answered. -/
structure OpensAt (cfg : Config) (env : Env) (s : Dev) (ev : Event) (v : View) (s' : Dev) : Prop where
  ex : ∃ buf rx c p u, Received cfg s ev buf rx c ∧
    Opens env s (buf.getD 2 0) (buf.getD 3 0) (apduPayload buf) c v p u ∧ s'.path = p ∧
    (s'.upl = u ∨ ∃ acc, s'.upl = u.drop acc) ∧
    (s.zui.openReview (v.viewer env.cr u.buf) = .shown s'.zui ∨ s'.zui.screen = .error ∨ s'.running = false)
  view : s'.view = some v
  flash : SameFlash s s'
  quiet : (s.step cfg env ev).2.reply = none ∧ (s.step cfg env ev).2.sig = none

/-- A command that opens a review and leaves it pending. -/
theorem Dev.opened_at {cfg : Config} {env : Env} {s : Dev} {ev : Event} {buf : Bytes} {rx : Nat} {c : Cmd} {v : View}
    {p : Option (Path × Curve)} {u u' : Upl} (hrec : Received cfg s ev buf rx c)
    (ho : Opens env s (buf.getD 2 0) (buf.getD 3 0) (apduPayload buf) c v p u)
    (hout : (s.exec cfg env c (buf.getD 2 0) (buf.getD 3 0) (apduPayload buf)).out =
      ((s.withUpload p u).show env v).out)
    (hst : (s.exec cfg env c (buf.getD 2 0) (buf.getD 3 0) (apduPayload buf)).st =
      { ((s.withUpload p u).show env v).st with upl := u' })
    (hupl : u' = u ∨ ∃ acc, u' = u.drop acc) (hv : ((s.withUpload p u).show env v).st.view = some v) :
    OpensAt cfg env s ev v (s.step cfg env ev).1 := by
  have h := hrec.step env
  have hview := (s.exec cfg env c (buf.getD 2 0) (buf.getD 3 0) (apduPayload buf)).deliver_view
  have hpath : ∀ r : Res, r.deliver.1.path = r.st.path := by
    intro r
    unfold Res.deliver
    split <;> rfl
  have hpath := hpath (s.exec cfg env c (buf.getD 2 0) (buf.getD 3 0) (apduPayload buf))
  rw [← h] at hview hpath
  refine ⟨⟨buf, rx, c, p, u, hrec, ho, ?_, ?_, ?_⟩, ?_, ?_, ?_⟩
  · rw [hpath, hst]
    exact (s.withUpload p u).show_path_some env v hv
  · have : (s.step cfg env ev).1.upl = u' := by
      rw [h]
      unfold Res.deliver
      split <;> rw [hst]
    rw [this]
    exact hupl
  · rw [h]
    rcases (s.withUpload p u).show_drawn env v hv with hz | hz | hz
    · left
      change s.zui.openReview (v.viewer env.cr u.buf) = _ at hz
      rw [hz]
      unfold Res.deliver
      split <;> rw [hst]
    · right; left
      rw [← hz]
      unfold Res.deliver
      split <;> rw [hst]
    · right; right
      obtain ⟨f, hz⟩ := hz
      rw [hz] at hout
      unfold Res.deliver
      rw [hout]
  · rw [hview, hst]
    exact hv
  · have h1 := (s.withUpload p u).show_flash env v
    have h2 := (s.exec cfg env c (buf.getD 2 0) (buf.getD 3 0) (apduPayload buf)).deliver_flash
    rw [← h, hst] at h2
    exact ⟨h2.1.trans h1.1, h2.2.trans h1.2, h2.3.trans h1.3, h2.4.trans h1.4⟩
  · rw [h]
    have hq := (s.withUpload p u).show_quiet env v hv
    unfold Res.deliver
    rcases hq with hq | ⟨f, hq⟩ <;> rw [hout, hq] <;> exact ⟨rfl, rfl⟩

theorem Dev.bakingSign_view (env : Env) (h : Bool) (d m : Bytes) (s : Dev) :
    (s.bakingSign env h d m).st.view = s.view := by
  rcases s.bakingSign_cases env h d m with ⟨h, _⟩ | ⟨k, sig, _, _, h⟩ <;> rw [h]

theorem Dev.resetHwm_view (env : Env) (l : UInt32) (s : Dev) : (s.resetHwm env l).st.view = s.view := by
  unfold Dev.resetHwm
  simp only
  rcases (s.writeMain env (WaterMark.reset l false)).1.afterWrite_cases
    (s.writeMain env (WaterMark.reset l false)).2 .executionError _ with ⟨_, h, _⟩ | ⟨_, h⟩
  · rw [h]; rfl
  · rw [h]
    rcases ((s.writeMain env (WaterMark.reset l false)).1.writeTest env (WaterMark.reset l false)).1.afterWrite_cases
      ((s.writeMain env (WaterMark.reset l false)).1.writeTest env (WaterMark.reset l false)).2
      .executionError _ with ⟨_, h, _⟩ | ⟨_, h⟩
    · rw [h]; rfl
    · rw [h]
      split
      · rfl
      · rcases (((s.writeMain env (WaterMark.reset l false)).1.writeTest env
            (WaterMark.reset l false)).1.writeChain env mainnetChainId).1.afterWrite_cases
          (((s.writeMain env (WaterMark.reset l false)).1.writeTest env
            (WaterMark.reset l false)).1.writeChain env mainnetChainId).2 .executionError
          (fun s => s.ok []) with ⟨_, h, _⟩ | ⟨_, h⟩ <;> rw [h] <;> rfl
      · rfl

theorem Dev.autoSign_view (env : Env) (h : Bool) (d m : Bytes) (dec : WaterMark → Except HErr WaterMark) (s : Dev)
    (hdec : ∀ hw e, dec hw = .error (.err e) → e ≠ .success) :
    (s.autoSign env h d m dec).st.view = s.view := by
  rcases s.autoSign_cases env h d m dec hdec with ⟨h, _⟩ | ⟨b, w, _, _, ⟨h, _⟩ | ⟨_, k, sig, _, _, h⟩⟩
  · rw [h]
  · rw [h]; rfl
  · rw [h]; rfl

/-- After an event the pending review is the old one, none, or one opened by it. -/
theorem Dev.step_view (cfg : Config) (env : Env) (ev : Event) (s : Dev) :
    (s.step cfg env ev).1.view = s.view ∨ (s.step cfg env ev).1.view = none ∨
    ∃ v, OpensAt cfg env s ev v (s.step cfg env ev).1 := by
  cases ev with
  | relaunch => exact .inr (.inl rfl)
  | apdu buf rx =>
    rcases s.apdu_cases cfg env buf rx with ⟨h, _⟩ | ⟨c, hrec, h⟩
    · rw [h]
      exact .inl rfl
    have hview := (s.exec cfg env c (buf.getD 2 0) (buf.getD 3 0) (apduPayload buf)).deliver_view
    have hpath : ∀ r : Res, r.deliver.1.path = r.st.path := by
      intro r
      unfold Res.deliver
      split <;> rfl
    have hpath := hpath (s.exec cfg env c (buf.getD 2 0) (buf.getD 3 0) (apduPayload buf))
    rw [← h] at hview hpath
    cases s.exec_cases cfg env c (buf.getD 2 0) (buf.getD 3 0) (apduPayload buf) with
    | still p u hs _ =>
      left
      rw [hview, hs.1]
      rfl
    | opened v p u u' ho hout hsig hst hupl =>
      rcases (s.withUpload p u).show_view env v with hv | hv
      · exact .inr (.inr ⟨v, Dev.opened_at hrec ho hout hst hupl hv⟩)
      · right; left
        rw [hview, hst]
        exact hv
    | reset p hc hp hl hr =>
      left
      rw [hview, hr]
      exact Dev.resetHwm_view ..
    | auto h u u' q2 first data ref k digest hc hu hcv hp hk hd hm hout hsig hst =>
      left
      rw [hview, hst]
      exact Dev.autoSign_view _ _ _ _ _ _ (fun _ _ => specDecide_error)
  | left =>
    simp only [Dev.step]
    split
    · split
      · rcases s.redraw_view (s.zui.goLeft (s.viewer env)) with h | h
        · exact .inl h
        · exact .inr (.inl h)
      · rcases s.onError_view false .prev with h | h
        · exact .inl h
        · exact .inr (.inl h)
      · exact .inl rfl
    · exact .inl rfl
  | right =>
    simp only [Dev.step]
    split
    · split
      · rcases s.redraw_view (s.zui.goRight (s.viewer env)) with h | h
        · exact .inl h
        · exact .inr (.inl h)
      · rcases s.onError_view s.zui.closesRight .next with h | h
        · exact .inl h
        · exact .inr (.inl h)
      · exact .inl rfl
    · exact .inl rfl
  | both =>
    simp only [Dev.step]
    split
    · split
      · rcases s.pressBoth_view env with h | h
        · exact .inl h
        · exact .inr (.inl h)
      · rcases s.onError_view s.zui.closesBoth id with h | h
        · exact .inl h
        · exact .inr (.inl h)
      · exact .inl rfl
    · exact .inl rfl
  | expert =>
    simp only [Dev.step]
    split <;> exact .inl rfl

/-! ### Resets, setups, authorizations -/

/-- Ends with an error status or a fault, without a signature. -/
def Res.Bad (r : Res) : Prop := r.sig = none ∧ ((∃ e, e ≠ .success ∧ r.out = .err e) ∨ ∃ f, r.out = .fault f)

theorem Res.Fails.bad {s : Dev} {r : Res} (h : r.Fails s) : r.Bad := ⟨h.2.1, h.2.2⟩

theorem Res.Bad.not_ok {r : Res} (h : r.Bad) (d : Bytes) : r.out ≠ .ok d := by
  obtain ⟨_, ⟨e, _, h⟩ | ⟨f, h⟩⟩ := h <;> rw [h] <;> simp

/-- The watermark record of `level` that resets and setups write. -/
def hwmBytes (level : UInt32) : Bytes := (WaterMark.reset level false).encode

/-- What `HWM::reset` does. -/
inductive ResetRes (env : Env) (l : UInt32) (s : Dev) (r : Res) : Prop where
  | main (hw : (s.main.write env.mainF (hwmBytes l)).2 ≠ .ok)
      (hst : r.st = { s with main := (s.main.write env.mainF (hwmBytes l)).1 }) (hb : r.Bad)
  | test (hm : (s.main.write env.mainF (hwmBytes l)).2 = .ok) (hw : (s.test.write env.testF (hwmBytes l)).2 ≠ .ok)
      (hst : r.st = { s with main := (s.main.write env.mainF (hwmBytes l)).1
                             test := (s.test.write env.testF (hwmBytes l)).1 }) (hb : r.Bad)
  | chain (hm : (s.main.write env.mainF (hwmBytes l)).2 = .ok) (ht : (s.test.write env.testF (hwmBytes l)).2 = .ok)
      (hst : r.st = { s with main := (s.main.write env.mainF (hwmBytes l)).1
                             test := (s.test.write env.testF (hwmBytes l)).1 })
      (h : (s.chain.read = .panic ∧ r.Bad) ∨
        (s.chain.read ≠ .panic ∧ s.chain.read ≠ .err .uninitialized ∧ r.out = .ok [] ∧ r.sig = none))
  | init (hm : (s.main.write env.mainF (hwmBytes l)).2 = .ok) (ht : (s.test.write env.testF (hwmBytes l)).2 = .ok)
      (hc : s.chain.read = .err .uninitialized)
      (hst : r.st = { s with main := (s.main.write env.mainF (hwmBytes l)).1
                             test := (s.test.write env.testF (hwmBytes l)).1
                             chain := (s.chain.write env.chainF (chainIdEncode mainnetChainId)).1 })
      (h : ((s.chain.write env.chainF (chainIdEncode mainnetChainId)).2 ≠ .ok ∧ r.Bad) ∨
        ((s.chain.write env.chainF (chainIdEncode mainnetChainId)).2 = .ok ∧ r.out = .ok [] ∧ r.sig = none))

theorem Dev.resetHwm_cases (env : Env) (l : UInt32) (s : Dev) : ResetRes env l s (s.resetHwm env l) := by
  unfold Dev.resetHwm
  dsimp only
  rcases (s.writeMain env (WaterMark.reset l false)).1.afterWrite_cases
    (s.writeMain env (WaterMark.reset l false)).2 .executionError _ with ⟨hw, h⟩ | ⟨hm, h⟩
  · exact .main hw h.1 h.bad
  rw [h]
  rcases ((s.writeMain env (WaterMark.reset l false)).1.writeTest env (WaterMark.reset l false)).1.afterWrite_cases
    ((s.writeMain env (WaterMark.reset l false)).1.writeTest env (WaterMark.reset l false)).2
    .executionError _ with ⟨hw, h⟩ | ⟨ht, h⟩
  · exact .test hm hw h.1 h.bad
  rw [h]
  split
  · rename_i hc
    exact .chain hm ht rfl (.inl ⟨hc, rfl, .inr ⟨_, rfl⟩⟩)
  · rename_i hc
    rcases (((s.writeMain env (WaterMark.reset l false)).1.writeTest env
        (WaterMark.reset l false)).1.writeChain env mainnetChainId).1.afterWrite_cases
      (((s.writeMain env (WaterMark.reset l false)).1.writeTest env
        (WaterMark.reset l false)).1.writeChain env mainnetChainId).2 .executionError
      (fun s => s.ok []) with ⟨hw, h⟩ | ⟨hw, h⟩
    · exact .init hm ht hc h.1 (.inl ⟨hw, h.bad⟩)
    · rw [h]
      exact .init hm ht hc rfl (.inr ⟨hw, rfl, rfl⟩)
  · rename_i h1 h2
    exact .chain hm ht rfl (.inr ⟨h1, h2, rfl, rfl⟩)

/-- What approving a setup does. -/
inductive SetupRes (env : Env) (k : PathAndCurve) (main test : UInt32) (chain : ChainID) (s : Dev) (r : Res) :
    Prop where
  | none (hst : r.st = s) (hb : r.Bad)
  | key (hw : (s.key.write env.keyF k.encode).2 ≠ .ok)
      (hst : r.st = { s with key := (s.key.write env.keyF k.encode).1 }) (hb : r.Bad)
  | main (hk : (s.key.write env.keyF k.encode).2 = .ok) (hw : (s.main.write env.mainF (hwmBytes main)).2 ≠ .ok)
      (hst : r.st = { s with key := (s.key.write env.keyF k.encode).1
                             main := (s.main.write env.mainF (hwmBytes main)).1 }) (hb : r.Bad)
  | test (hk : (s.key.write env.keyF k.encode).2 = .ok) (hm : (s.main.write env.mainF (hwmBytes main)).2 = .ok)
      (hw : (s.test.write env.testF (hwmBytes test)).2 ≠ .ok)
      (hst : r.st = { s with key := (s.key.write env.keyF k.encode).1
                             main := (s.main.write env.mainF (hwmBytes main)).1
                             test := (s.test.write env.testF (hwmBytes test)).1 }) (hb : r.Bad)
  | chain (hk : (s.key.write env.keyF k.encode).2 = .ok) (hm : (s.main.write env.mainF (hwmBytes main)).2 = .ok)
      (ht : (s.test.write env.testF (hwmBytes test)).2 = .ok)
      (hst : r.st = { s with key := (s.key.write env.keyF k.encode).1
                             main := (s.main.write env.mainF (hwmBytes main)).1
                             test := (s.test.write env.testF (hwmBytes test)).1
                             chain := (s.chain.write env.chainF (chainIdEncode chain.toU32)).1 })
      (h : ((s.chain.write env.chainF (chainIdEncode chain.toU32)).2 ≠ .ok ∧ r.Bad) ∨
        ((s.chain.write env.chainF (chainIdEncode chain.toU32)).2 = .ok ∧ r.sig = none ∧
          ∃ key, env.cr.publicKey k.curve k.path = some key ∧ r.out = .ok (keyReply key)))

theorem View.accept_setup (env : Env) (k : PathAndCurve) (a : Addr) (main test : UInt32) (chain : ChainID) (s : Dev) :
    SetupRes env k main test chain s (View.accept env (.setup k a main test chain) s) := by
  simp only [View.accept]
  split
  · exact .none rfl (s.fail_fails _).bad
  rename_i key hkey
  rcases (s.storeKey env k).1.afterWrite_cases (s.storeKey env k).2 .executionError _ with ⟨hw, h⟩ | ⟨hk, h⟩
  · exact .key hw h.1 h.bad
  rw [h]
  rcases ((s.storeKey env k).1.writeMain env (WaterMark.reset main false)).1.afterWrite_cases
    ((s.storeKey env k).1.writeMain env (WaterMark.reset main false)).2 .busy _ with ⟨hw, h⟩ | ⟨hm, h⟩
  · exact .main hk hw h.1 h.bad
  rw [h]
  rcases (((s.storeKey env k).1.writeMain env (WaterMark.reset main false)).1.writeTest env
      (WaterMark.reset test false)).1.afterWrite_cases
    (((s.storeKey env k).1.writeMain env (WaterMark.reset main false)).1.writeTest env
      (WaterMark.reset test false)).2 .busy _ with ⟨hw, h⟩ | ⟨ht, h⟩
  · exact .test hk hm hw h.1 h.bad
  rw [h]
  rcases ((((s.storeKey env k).1.writeMain env (WaterMark.reset main false)).1.writeTest env
      (WaterMark.reset test false)).1.writeChain env chain.toU32).1.afterWrite_cases
    ((((s.storeKey env k).1.writeMain env (WaterMark.reset main false)).1.writeTest env
      (WaterMark.reset test false)).1.writeChain env chain.toU32).2 .busy
    (fun s => s.ok (keyReply key)) with ⟨hw, h⟩ | ⟨hw, h⟩
  · exact .chain hk hm ht h.1 (.inl ⟨hw, h.bad⟩)
  · rw [h]
    exact .chain hk hm ht rfl (.inr ⟨hw, rfl, key, hkey, rfl⟩)

/-- What approving an authorization does. -/
inductive AuthorizeRes (env : Env) (k : PathAndCurve) (s : Dev) (r : Res) : Prop where
  | none (hst : r.st = s) (hb : r.Bad)
  | key (hw : (s.key.write env.keyF k.encode).2 ≠ .ok)
      (hst : r.st = { s with key := (s.key.write env.keyF k.encode).1 }) (hb : r.Bad)
  | done (hw : (s.key.write env.keyF k.encode).2 = .ok)
      (hst : r.st = { s with key := (s.key.write env.keyF k.encode).1 }) (hs : r.sig = none)
      (h : ∃ key, env.cr.publicKey k.curve k.path = some key ∧ r.out = .ok (keyReply key))

theorem View.accept_authorize (env : Env) (k : PathAndCurve) (a : Addr) (s : Dev) :
    AuthorizeRes env k s (View.accept env (.authorize k a) s) := by
  simp only [View.accept]
  split
  · exact .none rfl (s.fail_fails _).bad
  rename_i key hkey
  rcases (s.storeKey env k).1.afterWrite_cases (s.storeKey env k).2 .executionError
    (fun s => s.ok (keyReply key)) with ⟨hw, h⟩ | ⟨hk, h⟩
  · exact .key hw h.1 h.bad
  · rw [h]
    exact .done hk rfl rfl ⟨key, hkey, rfl⟩

/-- What approving a de-authorization does. -/
inductive DeauthorizeRes (env : Env) (s : Dev) (r : Res) : Prop where
  | key (hw : (s.key.write env.keyF PathAndCurve.empty).2 ≠ .ok)
      (hst : r.st = { s with key := (s.key.write env.keyF PathAndCurve.empty).1 }) (hb : r.Bad)
  | done (hw : (s.key.write env.keyF PathAndCurve.empty).2 = .ok)
      (hst : r.st = { s with key := (s.key.write env.keyF PathAndCurve.empty).1 }) (hs : r.sig = none)
      (h : r.out = .ok [])

theorem View.accept_deauthorize (env : Env) (a : Addr) (s : Dev) :
    DeauthorizeRes env s (View.accept env (.deauthorize a) s) := by
  simp only [View.accept]
  rcases (s.removeKey env).1.afterWrite_cases (s.removeKey env).2 .executionError (fun s => s.ok []) with
    ⟨hw, h⟩ | ⟨hk, h⟩
  · exact .key hw h.1 h.bad
  · rw [h]
    exact .done hk rfl rfl rfl

/-- What approving a signing review does. -/
inductive SignRes (env : Env) (h : Bool) (digest msg : Bytes) (s : Dev) (r : Res) : Prop where
  | bad (hst : r.st = s) (hb : r.Bad)
  | done (path : Path) (curve : Curve) (sig : Bytes) (hp : s.path = some (path, curve))
      (hs : env.cr.sign curve path digest = some sig)
      (hr : r = ⟨{ s with path := none }, .ok (sigReply h digest sig), some ⟨curve, path, digest, msg, sig⟩⟩)

theorem View.accept_sign (env : Env) (h : Bool) (d : Bytes) (p : Option MemRef) (m : Bytes) (s : Dev) :
    SignRes env h d m s (View.accept env (.sign h d p m) s) := by
  simp only [View.accept]
  split
  · exact .bad rfl (s.fail_fails _).bad
  · rename_i path curve hp
    split
    · exact .bad rfl (s.fail_fails _).bad
    · rename_i sig hs
      exact .done path curve sig hp hs rfl

/-- Reviews that only answer. -/
theorem View.accept_addr (env : Env) (a : Addr) (key : Bytes) (w : Bool) (s : Dev) :
    (View.accept env (.addr a key w) s).Still s := by
  simp only [View.accept]
  split
  · split
    · exact s.fault_still _
    · exact s.ok_still _
  · exact s.ok_still _

theorem View.accept_query (env : Env) (k : PathAndCurve) (a : Addr) (w : Bool) (s : Dev) :
    (View.accept env (.query k a w) s).Still s := s.ok_still _

/-! ### Bytes -/

/-- Checking all bytes. -/
theorem forall_u8 {P : UInt8 → Prop} (h : ∀ n : Fin 256, P (UInt8.ofNat n)) (b : UInt8) : P b := by
  have := h ⟨b.toNat, b.toNat_lt⟩
  simpa using this

end Tezos
