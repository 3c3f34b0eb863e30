import Verif.Sessions
import Verif.Props.Watermarks
/-
C28, C29, C46 and C55: what commands answer, which ones a build knows, what queries leave alone, and which bytes a
command acts on.
-/
set_option linter.unusedSimpArgs false
namespace Tezos

/-! ### Drawing leaves a review or the error screen -/

theorem updateLoop_screen {v : Viewer} {fuel : Nat} {z z' : Zui} (h : updateLoop v fuel z = .shown z') :
    ∃ k l1 l2, z'.screen = .review k l1 l2 := by
  induction fuel generalizing z with
  | zero => cases h
  | succ n ih =>
    simp only [updateLoop] at h
    split at h
    · cases h
    · cases h
    · cases h
    · split at h
      · cases h
      · cases h
      · cases h
      · split at h
        · exact ih h
        · cases h
          exact ⟨_, _, _, rfl⟩

theorem reviewUpdate_screen {v : Option Viewer} {z z' : Zui} (h : reviewUpdate v z = .shown z') :
    ∃ k l1 l2, z'.screen = .review k l1 l2 := by
  unfold reviewUpdate at h
  split at h
  · cases h
  · split at h
    · cases h
    · cases h
    · dsimp only at h
      split at h
      · cases h
        exact ⟨_, _, _, rfl⟩
      · split at h
        · cases h
          exact ⟨_, _, _, rfl⟩
        · exact updateLoop_screen h

/-! ### C28 -/

/-- The status words of the app other than success: rust/app/src/constants.rs 20-36. -/
def errorWords : List Bytes :=
  [[0x64, 0x00], [0x67, 0x00], [0x69, 0x82], [0x69, 0x83], [0x69, 0x84], [0x69, 0x85], [0x69, 0x86], [0x6A, 0x80],
   [0x6B, 0x00], [0x6D, 0x00], [0x6E, 0x00], [0x6F, 0x00], [0x6F, 0x01], [0x90, 0x01]]

theorem statusWord_error {e : ApduError} (h : e ≠ .success) : statusWord e ∈ errorWords := by
  cases e <;> first | exact absurd rfl h | decide

theorem statusWord_success : statusWord .success = [0x90, 0x00] := by decide

theorem ZuiX.screen_review (x : ZuiX) : ∃ k l1 l2, x.screen = .review k l1 l2 := by
  unfold ZuiX.screen
  split <;> exact ⟨_, _, _, rfl⟩

theorem openReview_screen {v : Viewer} {z z' : Zui} (h : z.openReview v = .shown z') :
    ∃ k l1 l2, z'.screen = .review k l1 l2 := by
  unfold Zui.openReview at h
  split at h
  · exact reviewUpdate_screen h
  · rename_i l _
    cases h
    exact l.x.showReview.screen_review

/-- A review or the error message is on the screen. -/
def Dev.Asking (s : Dev) : Prop := (∃ k l1 l2, s.zui.screen = .review k l1 l2) ∨ s.zui.screen = .error

/-- The possible answers to a command. -/
inductive Answered (s' : Dev) (o : Output) : Prop where
  /-- Data and the status word of success. -/
  | data (d : Bytes) (hr : o.reply = some (d ++ [0x90, 0x00])) (hf : o.fault = none)
  /-- Another status word, alone. -/
  | refused (w : Bytes) (hw : w ∈ errorWords) (hr : o.reply = some w) (hs : o.sig = none) (hf : o.fault = none)
  /-- A review, and no reply yet. -/
  | review (v : View) (hv : s'.view = some v) (ha : s'.Asking) (hr : o.reply = none) (hs : o.sig = none)
      (hf : o.fault = none)
  /-- The app stopped. -/
  | abort (f : Fault) (hf : o.fault = some f) (hr : o.reply = none) (hs : o.sig = none) (hrun : s'.running = false)

/-- The same before delivery. -/
inductive Res.Answer (r : Res) : Prop where
  | data (d : Bytes) (h : r.out = .ok d)
  | refused (e : ApduError) (he : e ≠ .success) (h : r.out = .err e)
  | review (v : View) (hv : r.st.view = some v) (ha : r.st.Asking) (h : r.out = .shown none)
  | rejected (h : r.out = .shown (some (statusWord .commandNotAllowed)))
  | abort (f : Fault) (h : r.out = .fault f)

theorem Res.Answer.deliver {r : Res} (h : r.Answer) : Answered r.deliver.1 r.deliver.2 := by
  cases h with
  | data d h =>
    exact .data d (by simp only [Res.deliver, h, statusWord_success]) (by simp only [Res.deliver, h])
  | refused e he h =>
    exact .refused _ (statusWord_error he) (by simp only [Res.deliver, h]) (by simp only [Res.deliver, h])
      (by simp only [Res.deliver, h])
  | review v hv ha h =>
    refine .review v ?_ ?_ ?_ ?_ ?_ <;> simp only [Res.deliver, h]
    · exact hv
    · exact ha
  | rejected h =>
    refine .refused _ (statusWord_error (e := .commandNotAllowed) (by decide)) ?_ ?_ ?_ <;> simp only [Res.deliver, h]
  | abort f h =>
    refine .abort f ?_ ?_ ?_ ?_ <;> simp only [Res.deliver, h]

theorem Res.Bad.answer {r : Res} (h : r.Bad) : r.Answer := by
  obtain ⟨_, ⟨e, he, h⟩ | ⟨f, h⟩⟩ := h
  · exact .refused e he h
  · exact .abort f h

theorem Dev.show_answer (env : Env) (v : View) (s : Dev) : (s.show env v).Answer := by
  unfold Dev.show
  dsimp only
  split
  · rename_i z hz
    exact .review v rfl (.inl (openReview_screen hz)) rfl
  · exact .review v rfl (.inr rfl) rfl
  · exact .rejected rfl
  · exact .abort _ rfl
  · exact .abort _ rfl

theorem LockError.toApdu_ne (e : LockError) : e.toApdu ≠ .success := by cases e <;> decide

theorem UplRes.ofWrite_err {r : WriteRes} {e : ApduError} (h : UplRes.ofWrite r = some (.err e)) : e ≠ .success := by
  cases r <;> cases h
  decide

theorem Upl.upload_err {fc fa : WriteFate} {acc : Accessor} {p1 p2 : UInt8} {payload : Option Bytes} {u : Upl}
    {e : ApduError} (h : (u.upload fc fa acc p1 p2 payload).2 = .err e) : e ≠ .success := by
  unfold Upl.upload at h
  repeat' (first
    | (cases h; done)
    | (cases h; first | decide | exact LockError.toApdu_ne _)
    | (rename_i hw; subst h; exact UplRes.ofWrite_err hw)
    | split at h
    | dsimp only at h)

theorem Dev.cmdUpload_answer {env : Env} {acc : Accessor} {p1 p2 : UInt8} {payload : Option Bytes}
    {finish : UInt8 → Bytes → Bytes → MemRef → Dev → Res} {s : Dev}
    (hf : ∀ q2 first data ref s, (finish q2 first data ref s).Answer) :
    (s.cmdUpload env acc p1 p2 payload finish).Answer := by
  unfold Dev.cmdUpload
  dsimp only
  split
  · exact .data _ rfl
  · rename_i e he
    exact .refused e (Upl.upload_err he) rfl
  · exact .abort _ rfl
  · exact .abort _ rfl
  · rename_i q2 first data ref _
    cases hf q2 first data ref { s with upl := (s.upl.upload env.copyF env.appendF acc p1 p2 payload).1 } with
    | data d h => exact .data d h
    | refused e he h => exact .refused e he h
    | review v hv ha h => exact .review v hv ha h
    | rejected h => exact .rejected h
    | abort f h => exact .abort f h

theorem Dev.autoSign_answer (env : Env) (h : Bool) (digest m : Bytes) (dec : WaterMark → Except HErr WaterMark)
    (s : Dev) (hdec : ∀ hw e, dec hw = .error (.err e) → e ≠ .success) : (s.autoSign env h digest m dec).Answer := by
  rcases s.autoSign_cases env h digest m dec hdec with hf | ⟨b, w, _, _, hf | ⟨_, k, sig, _, _, he⟩⟩
  · exact hf.bad.answer
  · exact hf.bad.answer
  · rw [he]
    exact .data _ rfl

theorem Dev.exec_answer (cfg : Config) (env : Env) (c : Cmd) (p1 p2 : UInt8) (payload : Option Bytes) (s : Dev) :
    (s.exec cfg env c p1 p2 payload).Answer := by
  cases c with
  | bakerSign h =>
    refine Dev.cmdUpload_answer fun q2 first data ref s => ?_
    rcases s.bakerSign_cases env h q2 first data ref with hf | ⟨k, digest, hc, hp, hk, hd, ⟨hm, hb⟩ | ⟨rem, hrem, hb⟩⟩
    · exact hf.bad.answer
    · rw [hb]
      exact Dev.autoSign_answer _ _ _ _ _ _ (fun _ _ => specDecide_error)
    · rw [hb]
      rcases s.handleDelegation_cases env h digest rem data _ with hf | ⟨branch, ops, rest, op, ho, hn, hop, hshow⟩
      · exact hf.bad.answer
      · rw [hshow]
        exact Dev.show_answer _ _ _
  | sign h =>
    refine Dev.cmdUpload_answer fun q2 first data ref s => ?_
    rcases s.startSign_cases env h q2 first data ref with
      hf | ⟨k, hc, hp, hf | ⟨digest, hd, ⟨rem, ops, hrem, ho, hshow⟩ | ⟨rem, hrem, hshow⟩⟩⟩
    · exact hf.bad.answer
    · exact hf.bad.answer
    · rw [hshow]
      exact Dev.show_answer _ _ _
    · rw [hshow]
      exact Dev.show_answer _ _ _
  | reset =>
    simp only [Dev.exec]
    rcases s.cmdReset_cases env payload with h | ⟨p, hp, hl, h⟩
    · exact h.bad.answer
    · rw [h]
      cases s.resetHwm_cases env (u32OfBe (p.take 4)) with
      | main _ _ hb => exact hb.answer
      | test _ _ _ hb => exact hb.answer
      | chain _ _ _ h' =>
        rcases h' with ⟨_, hb⟩ | ⟨_, _, h', _⟩
        · exact hb.answer
        · exact .data _ h'
      | init _ _ _ _ h' =>
        rcases h' with ⟨_, hb⟩ | ⟨_, h', _⟩
        · exact hb.answer
        · exact .data _ h'
  | queryMain =>
    simp only [Dev.exec, Dev.cmdQueryMain]
    split
    · exact .data _ rfl
    · exact .data _ rfl
    · exact .refused .executionError (by decide) rfl
    · exact .abort _ rfl
  | queryAll =>
    simp only [Dev.exec, Dev.cmdQueryAll]
    split
    · exact .data _ rfl
    · exact .data _ rfl
    · exact .refused .executionError (by decide) rfl
    · exact .abort _ rfl
  | authorize =>
    simp only [Dev.exec]
    rcases s.cmdAuthorize_cases env p1 p2 payload with h | ⟨k, p, a, h1, hc, hp, hr, ha, h⟩
    · exact h.bad.answer
    · rw [h]
      exact Dev.show_answer _ _ _
  | deauthorize =>
    simp only [Dev.exec]
    rcases s.cmdDeauthorize_cases env p1 with h | ⟨k, a, h1, hk, ha, h⟩
    · exact h.bad.answer
    · rw [h]
      exact Dev.show_answer _ _ _
  | queryAuth wc =>
    simp only [Dev.exec]
    rcases s.cmdQueryAuth_cases env wc p1 with h | ⟨k, a, hk, ha, ⟨h1, h⟩ | ⟨_, h⟩⟩
    · exact h.bad.answer
    · rw [h]
      exact Dev.show_answer _ _ _
    · rw [h]
      exact .data _ rfl
  | setup =>
    simp only [Dev.exec]
    rcases s.cmdSetup_cases env p2 payload with h | ⟨k, p, a, hc, hp, hl, hn, hr, ha, h⟩
    · exact h.bad.answer
    · rw [h]
      exact Dev.show_answer _ _ _
  | hmac =>
    simp only [Dev.exec, Dev.cmdHmac]
    repeat' (first
      | exact .refused _ (by decide) rfl
      | exact .data _ rfl
      | split
      | dsimp only)
  | legacyVersion => exact .data _ rfl
  | git => exact .data _ rfl
  | version => exact .data _ rfl
  | getKey =>
    simp only [Dev.exec]
    rcases s.cmdGetKey_cases env p2 payload with h | ⟨k, p, key, _, _, _, _, h⟩
    · exact h.bad.answer
    · rw [h]
      exact .data _ rfl
  | promptAddr =>
    simp only [Dev.exec]
    rcases s.cmdAddr_cases env true p2 payload with h | ⟨k, p, key, a, hc, hp, hr, hk, ha, ⟨_, h⟩ | ⟨h, _⟩⟩
    · exact h.bad.answer
    · rw [h]
      exact Dev.show_answer _ _ _
    · cases h
  | getAddr =>
    simp only [Dev.exec]
    rcases s.cmdAddr_cases env (p1 ≥ 1) p2 payload with
      h | ⟨k, p, key, a, hc, hp, hr, hk, ha, ⟨h1, h⟩ | ⟨_, t, _, h⟩⟩
    · exact h.bad.answer
    · rw [h]
      exact Dev.show_answer _ _ _
    · rw [h]
      exact .data _ rfl

/-- C28: whatever the host sends, a running app answers with data and 0x9000, or with another status word of the
table alone, or with a review, or stops. -/
theorem C28_every_apdu_is_answered (cfg : Config) (env : Env) (buf : Bytes) (rx : Nat) (s : Dev)
    (h : s.running = true) :
    Answered (s.step cfg env (.apdu buf rx)).1 (s.step cfg env (.apdu buf rx)).2 := by
  simp only [Dev.step, h, if_true, Dev.dispatch]
  split
  · exact Res.Answer.deliver (.refused .wrongLength (by decide) rfl)
  · split
    · exact Res.Answer.deliver (.refused .claNotSupported (by decide) rfl)
    · split
      · exact Res.Answer.deliver (.refused .commandNotAllowed (by decide) rfl)
      · exact (Dev.exec_answer ..).deliver

/-- C28: fewer than five bytes are answered with 0x6700 and change nothing. -/
theorem C28_short (cfg : Config) (env : Env) (buf : Bytes) (rx : Nat) (s : Dev) (h : s.running = true)
    (hrx : rx < 5) : s.step cfg env (.apdu buf rx) = (s, ⟨some [0x67, 0x00], none, none⟩) := by
  simp only [Dev.step, h, if_true, Dev.dispatch]
  rw [if_pos (by omega)]
  rfl

/-- C28: another class is answered with 0x6E00 and changes nothing. -/
theorem C28_wrong_class (cfg : Config) (env : Env) (buf : Bytes) (rx : Nat) (s : Dev) (h : s.running = true)
    (hrx : 5 ≤ rx ∧ rx ≤ buf.length) (cla : UInt8) (hc : buf[0]? = some cla) (hne : cla ≠ 0x80) :
    s.step cfg env (.apdu buf rx) = (s, ⟨some [0x6E, 0x00], none, none⟩) := by
  simp only [Dev.step, h, if_true, Dev.dispatch]
  rw [if_neg (by omega), if_pos (by rw [List.getD_eq_getElem?_getD, hc]; exact hne)]
  rfl

/-- The instruction codes of the baking app. -/
def bakingInstructions : List UInt8 :=
  [0x00, 0x01, 0x02, 0x03, 0x04, 0x06, 0x07, 0x08, 0x09, 0x0A, 0x0B, 0x0C, 0x0D, 0x0E, 0x0F, 0x10, 0x11, 0x12,
   0xA1, 0xA7, 0xAC, 0xAD, 0xAF]

/-- The instruction codes of the wallet. -/
def walletInstructions : List UInt8 := [0x00, 0x02, 0x03, 0x04, 0x05, 0x09, 0x0F, 0x10, 0x11, 0x12]

/-- The instruction codes of a build. -/
def instructions : Build → List UInt8
  | .baking => bakingInstructions
  | .wallet => walletInstructions

theorem command_isSome (b : Build) (ins : UInt8) : (command b ins).isSome = decide (ins ∈ instructions b) := by
  cases b
  · exact forall_u8 (P := fun ins => (command .baking ins).isSome = decide (ins ∈ instructions .baking))
      (by decide +kernel) ins
  · exact forall_u8 (P := fun ins => (command .wallet ins).isSome = decide (ins ∈ instructions .wallet))
      (by decide +kernel) ins

/-- C28: an instruction the build does not know is answered with 0x6986 and changes nothing. -/
theorem C28_unknown_instruction (cfg : Config) (env : Env) (buf : Bytes) (rx : Nat) (s : Dev) (h : s.running = true)
    (hrx : 5 ≤ rx ∧ rx ≤ buf.length) (hc : buf[0]? = some 0x80) (ins : UInt8) (hi : buf[1]? = some ins)
    (hne : ins ∉ instructions cfg.build) :
    s.step cfg env (.apdu buf rx) = (s, ⟨some [0x69, 0x86], none, none⟩) := by
  simp only [Dev.step, h, if_true, Dev.dispatch]
  have h1 : buf.getD 1 0 = ins := by rw [List.getD_eq_getElem?_getD, hi]; rfl
  have h2 : command cfg.build ins = none := by
    have := command_isSome cfg.build ins
    rw [decide_eq_false hne] at this
    exact Option.not_isSome_iff_eq_none.mp (by rw [this]; simp)
  rw [if_neg (by omega), if_neg (by rw [List.getD_eq_getElem?_getD, hc]; simp), h1, h2]
  rfl

/-- A command the build knows is not refused for its instruction: the handler runs. -/
theorem C28_known_instruction (cfg : Config) (env : Env) (buf : Bytes) (rx : Nat) (s : Dev) (h : s.running = true)
    (hrx : 5 ≤ rx ∧ rx ≤ buf.length) (hc : buf[0]? = some 0x80) (ins : UInt8) (hi : buf[1]? = some ins)
    (hin : ins ∈ instructions cfg.build) :
    ∃ c, command cfg.build ins = some c ∧ s.step cfg env (.apdu buf rx) =
      (s.exec cfg env c (buf.getD 2 0) (buf.getD 3 0) (apduPayload buf)).deliver := by
  have := command_isSome cfg.build ins
  rw [decide_eq_true hin] at this
  obtain ⟨c, hcmd⟩ := Option.isSome_iff_exists.mp this
  exact ⟨c, hcmd, Received.step ⟨rfl, h, hrx, hc, ins, hi, hcmd⟩ env⟩

/-! ### C29 -/

/-- The instructions only the baking app has. -/
def bakingOnly : List UInt8 := [0x01, 0x06, 0x07, 0x08, 0x0A, 0x0B, 0x0C, 0x0D, 0x0E, 0xA1, 0xA7, 0xAC, 0xAD, 0xAF]

/-- C29: the wallet refuses the baking instructions with 0x6986, the baking app the wallet instruction; nothing
changes. -/
theorem C29_refused (cfg : Config) (env : Env) (buf : Bytes) (rx : Nat) (s : Dev) (h : s.running = true)
    (hrx : 5 ≤ rx ∧ rx ≤ buf.length) (hc : buf[0]? = some 0x80) (ins : UInt8) (hi : buf[1]? = some ins)
    (hx : (cfg.build = .wallet ∧ ins ∈ bakingOnly) ∨ (cfg.build = .baking ∧ ins = 0x05)) :
    s.step cfg env (.apdu buf rx) = (s, ⟨some [0x69, 0x86], none, none⟩) := by
  refine C28_unknown_instruction cfg env buf rx s h hrx hc ins hi ?_
  rcases hx with ⟨hb, hx⟩ | ⟨hb, rfl⟩
  · rw [hb]
    revert hx
    exact forall_u8 (P := fun ins => ins ∈ bakingOnly → ins ∉ instructions .wallet) (by decide +kernel) ins
  · rw [hb]
    decide

/-- The commands of the wallet. -/
theorem command_wallet {ins : UInt8} {c : Cmd} (h : command .wallet ins = some c) :
    (∃ b, c = .sign b) ∨ c ∈ [.legacyVersion, .getKey, .promptAddr, .getAddr, .git, .version] := by
  unfold command command.common at h
  simp only at h
  repeat' (first
    | (cases h; done)
    | (cases h; simp; done)
    | split at h)

/-- The reviews of the wallet: messages to sign, and addresses. -/
def View.Wallet : View → Prop
  | .sign .. => True
  | .addr .. => True
  | _ => False

theorem Opens.wallet {env : Env} {s : Dev} {p1 p2 : UInt8} {payload : Option Bytes} {c : Cmd} {v : View}
    {p : Option (Path × Curve)} {u : Upl} (h : Opens env s p1 p2 payload c v p u) {ins : UInt8}
    (hc : command .wallet ins = some c) : v.Wallet := by
  have := command_wallet hc
  cases h <;> first | trivial | simp at this

theorem Dev.wallet_step {cfg : Config} (hcfg : cfg.build = .wallet) {env : Env} {ev : Event} {s : Dev}
    (h : s.Pending View.Wallet) : (s.step cfg env ev).1.Pending View.Wallet := by
  intro v hv
  rcases s.step_view cfg env ev with h' | h' | ⟨w, hw⟩
  · exact h v (by rw [← h', hv])
  · rw [h'] at hv
    cases hv
  · obtain ⟨buf, rx, c, p, u, ⟨_, _, _, _, ins, _, hc⟩, ho, _⟩ := hw.ex
    rw [hw.view] at hv
    cases hv
    rw [hcfg] at hc
    exact ho.wallet hc

/-- The records are as before, up to what is kept in RAM. -/
structure SamePages (s s' : Dev) : Prop where
  main : s'.main.pages = s.main.pages
  test : s'.test.pages = s.test.pages
  chain : s'.chain.pages = s.chain.pages
  key : s'.key.pages = s.key.pages

theorem SamePages.trans {a b c : Dev} (h1 : SamePages a b) (h2 : SamePages b c) : SamePages a c :=
  ⟨h2.1.trans h1.1, h2.2.trans h1.2, h2.3.trans h1.3, h2.4.trans h1.4⟩

theorem SameFlash.pages {s s' : Dev} (h : SameFlash s s') : SamePages s s' := by
  obtain ⟨h1, h2, h3, h4⟩ := h
  exact ⟨by rw [h1], by rw [h2], by rw [h3], by rw [h4]⟩

theorem Dev.wallet_pages {cfg : Config} (hcfg : cfg.build = .wallet) {env : Env} {ev : Event} {s : Dev}
    (h : s.Pending View.Wallet) : SamePages s (s.step cfg env ev).1 := by
  cases s.step_cases cfg env ev with
  | still h _ => exact h.pages
  | relaunch h _ _ => exact ⟨by rw [h.1]; rfl, by rw [h.2]; rfl, by rw [h.3]; rfl, by rw [h.4]; rfl⟩
  | accept v ha hfl _ _ =>
    have hv := h v ha.view
    refine SameFlash.pages ?_
    cases v with
    | sign hh d p m =>
      cases View.accept_sign env hh d p m s.idle with
      | bad hst _ => rw [hst] at hfl; exact s.idle_flash.trans hfl
      | done path curve sig hp hsg hre =>
        rw [hre] at hfl
        exact ⟨hfl.1, hfl.2, hfl.3, hfl.4⟩
    | addr a k w =>
      rw [(View.accept_addr env a k w s.idle).1] at hfl
      exact s.idle_flash.trans hfl
    | _ => exact hv.elim
  | command buf rx c hrec he =>
    obtain ⟨_, _, _, _, ins, _, hc⟩ := hrec
    rw [hcfg] at hc
    have hw := command_wallet hc
    have hfl := (s.exec cfg env c (buf.getD 2 0) (buf.getD 3 0) (apduPayload buf)).deliver_flash
    rw [he] at hfl
    refine SameFlash.pages ?_
    cases s.exec_cases cfg env c (buf.getD 2 0) (buf.getD 3 0) (apduPayload buf) with
    | still p u hs _ =>
      rw [hs.1] at hfl
      exact ⟨hfl.1, hfl.2, hfl.3, hfl.4⟩
    | opened v p u u' ho hout hs hst _ =>
      rw [hst] at hfl
      obtain ⟨a1, a2, a3, a4⟩ := (s.withUpload p u).show_flash env v
      exact ⟨hfl.1.trans a1, hfl.2.trans a2, hfl.3.trans a3, hfl.4.trans a4⟩
    | reset p hc hp hl hr => subst hc; simp at hw
    | auto hh u u' q2 first m ref k digest hc => subst hc; simp at hw

theorem Dev.wallet_run {cfg : Config} (hcfg : cfg.build = .wallet) {s : Dev} (es : List (Env × Event))
    (h : s.Pending View.Wallet) : SamePages s (s.run cfg es).1 := by
  induction es generalizing s with
  | nil => exact ⟨rfl, rfl, rfl, rfl⟩
  | cons x xs ih => exact (Dev.wallet_pages hcfg h).trans (ih (Dev.wallet_step hcfg h))

/-- C29: whatever happens to a wallet, the flash pages of the watermarks, the chain id and the authorized key are as
shipped. -/
theorem C29_wallet_never_writes_records (cfg : Config) (hcfg : cfg.build = .wallet) (new : NewDevice)
    (es : List (Env × Event)) : SamePages (Dev.factory new) ((Dev.factory new).run cfg es).1 :=
  Dev.wallet_run hcfg es (Dev.Pending.factory _ _)

/-! ### C46 -/

/-- Version, public key and address, watermark and authorized-key queries. -/
def queryInstructions : List UInt8 := [0x00, 0x02, 0x03, 0x07, 0x08, 0x09, 0x0B, 0x0D, 0x10, 0x11, 0xA7, 0xAD]

/-- The commands behind them. -/
def Cmd.isQuery : Cmd → Bool
  | .queryMain | .queryAll | .queryAuth _ | .legacyVersion | .git | .version | .getKey | .promptAddr | .getAddr => true
  | _ => false

theorem command_query (b : Build) {ins : UInt8} (h : ins ∈ queryInstructions) {c : Cmd}
    (hc : command b ins = some c) : c.isQuery = true := by
  have : ∀ ins : UInt8, ins ∈ queryInstructions → (command b ins).all Cmd.isQuery = true := by
    cases b
    · exact fun ins => forall_u8 (P := fun ins => ins ∈ queryInstructions →
        (command .baking ins).all Cmd.isQuery = true) (by decide +kernel) ins
    · exact fun ins => forall_u8 (P := fun ins => ins ∈ queryInstructions →
        (command .wallet ins).all Cmd.isQuery = true) (by decide +kernel) ins
  have := this ins h
  rwa [hc] at this

theorem command_hmac {b : Build} {ins : UInt8} (h : command b ins = some .hmac) : ins = 0x0E := by
  cases b
  · exact forall_u8 (P := fun ins => command .baking ins = some .hmac → ins = 0x0E) (by decide +kernel) ins h
  · exact forall_u8 (P := fun ins => command .wallet ins = some .hmac → ins = 0x0E) (by decide +kernel) ins h

theorem Dev.show_path {env : Env} {v : View} {s : Dev} (hv : ∀ h d p m, v ≠ .sign h d p m) :
    (s.show env v).st.path = s.path := by
  unfold Dev.show
  dsimp only
  split
  · rfl
  · rfl
  · cases v <;> first | rfl | exact absurd rfl (hv _ _ _ _)
  · rfl
  · rfl

theorem Res.deliver_path (r : Res) : r.deliver.1.path = r.st.path := by
  unfold Res.deliver
  split <;> rfl

theorem Res.deliver_upl' (r : Res) : r.deliver.1.upl = r.st.upl := by
  unfold Res.deliver
  split <;> rfl

/-- Nothing but the screen and the pending review changed, and no signature was made. -/
structure Res.Silent (s : Dev) (r : Res) : Prop where
  flash : SameFlash s r.st
  path : r.st.path = s.path
  upl : r.st.upl = s.upl
  sig : r.sig = none

theorem Res.Still.silent {s : Dev} {r : Res} (h : r.Still s) : r.Silent s := by
  obtain ⟨h1, h2, _⟩ := h
  exact ⟨by rw [h1]; exact .refl s, by rw [h1], by rw [h1], h2⟩

theorem Dev.show_silent {env : Env} {v : View} {s : Dev} (hv : ∀ h d p m, v ≠ .sign h d p m) :
    (s.show env v).Silent s :=
  ⟨Dev.show_flash _ _ _, Dev.show_path hv, Dev.show_upl _ _ _, Dev.show_sig _ _ _⟩

theorem Dev.query_silent (cfg : Config) (env : Env) {c : Cmd} (hc : c.isQuery = true ∨ c = .hmac) (p1 p2 : UInt8)
    (payload : Option Bytes) (s : Dev) : (s.exec cfg env c p1 p2 payload).Silent s := by
  cases c with
  | queryMain => exact s.cmdQueryMain_still.silent
  | queryAll => exact s.cmdQueryAll_still.silent
  | hmac => exact (s.cmdHmac_still env p2 payload).silent
  | queryAuth wc =>
    simp only [Dev.exec]
    rcases s.cmdQueryAuth_cases env wc p1 with h | ⟨k, a, hk, ha, ⟨h1, h⟩ | ⟨_, h⟩⟩
    · exact h.still.silent
    · rw [h]
      exact Dev.show_silent (by simp)
    · rw [h]
      exact (s.ok_still _).silent
  | legacyVersion => exact (s.ok_still _).silent
  | git => exact (s.ok_still _).silent
  | version => exact (s.ok_still _).silent
  | getKey =>
    simp only [Dev.exec]
    rcases s.cmdGetKey_cases env p2 payload with h | ⟨k, p, key, _, _, _, _, h⟩
    · exact h.still.silent
    · rw [h]
      exact (s.ok_still _).silent
  | promptAddr =>
    simp only [Dev.exec]
    rcases s.cmdAddr_cases env true p2 payload with h | ⟨k, p, key, a, hc, hp, hr, hk, ha, ⟨_, h⟩ | ⟨h, _⟩⟩
    · exact h.still.silent
    · rw [h]
      exact Dev.show_silent (by simp)
    · cases h
  | getAddr =>
    simp only [Dev.exec]
    rcases s.cmdAddr_cases env (p1 ≥ 1) p2 payload with
      h | ⟨k, p, key, a, hc, hp, hr, hk, ha, ⟨h1, h⟩ | ⟨_, t, _, h⟩⟩
    · exact h.still.silent
    · rw [h]
      exact Dev.show_silent (by simp)
    · rw [h]
      exact (s.ok_still _).silent
  | _ => simp [Cmd.isQuery] at hc

/-- C46: version, public key, watermark, authorized-key and HMAC requests change no record, no pending signing key and
no upload, and release no signature. They may replace what is on the screen. -/
theorem C46_queries_change_nothing (cfg : Config) (env : Env) (buf : Bytes) (rx : Nat) (s : Dev) (ins : UInt8)
    (hi : buf[1]? = some ins) (hin : ins ∈ queryInstructions ∨ ins = 0x0E) :
    SameFlash s (s.step cfg env (.apdu buf rx)).1 ∧ (s.step cfg env (.apdu buf rx)).1.path = s.path ∧
    (s.step cfg env (.apdu buf rx)).1.upl = s.upl ∧ (s.step cfg env (.apdu buf rx)).2.sig = none := by
  rcases s.apdu_cases cfg env buf rx with ⟨h, hs⟩ | ⟨c, hrec, h⟩
  · exact ⟨by rw [h]; exact .refl s, by rw [h], by rw [h], hs⟩
  · obtain ⟨_, _, _, _, ins', hi', hc⟩ := hrec
    rw [hi] at hi'
    cases hi'
    have hq : c.isQuery = true ∨ c = .hmac := by
      rcases hin with hin | rfl
      · exact .inl (command_query _ hin hc)
      · right
        have e : command cfg.build 0x0E = some .hmac ∨ command cfg.build 0x0E = none := by
          cases cfg.build <;> decide
        rcases e with e | e <;> rw [e] at hc <;> cases hc
        rfl
    obtain ⟨h1, h2, h3, h4⟩ := Dev.query_silent cfg env hq (buf.getD 2 0) (buf.getD 3 0) (apduPayload buf) s
    rw [h]
    refine ⟨h1.trans (Res.deliver_flash _), ?_, ?_, Res.deliver_none h4⟩
    · rw [Res.deliver_path, h2]
    · rw [Res.deliver_upl', h3]

theorem Dev.redraw_path_none {u : Upd} {s : Dev} (h : s.view = none) :
    (s.redraw u).1.path = s.path ∧ (s.redraw u).1.upl = s.upl := by
  unfold Dev.redraw
  cases u with
  | rejected z =>
    simp only [Dev.reject]
    split
    · exact ⟨rfl, rfl⟩
    · rename_i v hv
      rw [h] at hv
      cases hv
  | _ => exact ⟨rfl, rfl⟩

/-- What approving leaves in RAM. -/
theorem Approves.step_ram {cfg : Config} {s : Dev} {ev : Event} {v : View} (h : Approves s ev v) (env : Env) :
    (s.step cfg env ev).1.path = (v.accept env s.idle).st.path ∧
    (s.step cfg env ev).1.upl = (v.accept env s.idle).st.upl ∧ (s.step cfg env ev).1.view = none := by
  obtain ⟨hrun, rfl, ⟨k, l1, l2, hscr⟩, hact, hview⟩ := h
  have hstep : s.step cfg env .both = s.pressBoth env := by simp only [Dev.step, hrun, if_true, hscr]
  have happ : s.approve env =
      ({ (v.accept env s.idle).deliver.1 with view := none }, (v.accept env s.idle).deliver.2) := by
    unfold Dev.approve
    dsimp only
    split
    · rename_i hw
      rw [hview] at hw
      cases hw
    · rename_i w hw
      rw [hview] at hw
      cases hw
      rfl
  rw [hstep]
  unfold Dev.pressBoth
  simp only [hact, happ]
  split
  · obtain ⟨a, b⟩ := Dev.redraw_path_none
      (u := Zui.expertJump (Dev.viewer env { (v.accept env s.idle).deliver.1 with view := none })
          (v.accept env s.idle).deliver.1.zui) (s := { (v.accept env s.idle).deliver.1 with view := none }) rfl
    refine ⟨a.trans (Res.deliver_path _), b.trans (Res.deliver_upl' _), ?_⟩
    rcases Dev.redraw_view (Zui.expertJump (Dev.viewer env { (v.accept env s.idle).deliver.1 with view := none })
          (v.accept env s.idle).deliver.1.zui) { (v.accept env s.idle).deliver.1 with view := none } with h | h <;> exact h
  · exact ⟨Res.deliver_path _, Res.deliver_upl' _, rfl⟩

/-- C46: nor does approving the display of an address or of the authorized key. -/
theorem C46_displays_change_nothing (cfg : Config) (env : Env) (ev : Event) (s : Dev) (v : View)
    (ha : Approves s ev v) (hv : (∃ a k w, v = .addr a k w) ∨ ∃ k a w, v = .query k a w) :
    SameFlash s (s.step cfg env ev).1 ∧ (s.step cfg env ev).1.path = s.path ∧
    (s.step cfg env ev).1.upl = s.upl ∧ (s.step cfg env ev).2.sig = none := by
  have hst : (v.accept env s.idle).Still s.idle := by
    rcases hv with ⟨a, k, w, rfl⟩ | ⟨k, a, w, rfl⟩
    · exact View.accept_addr env a k w s.idle
    · exact View.accept_query env k a w s.idle
  obtain ⟨h1, h2, _⟩ := ha.step (cfg := cfg) env
  obtain ⟨h3, h4, _⟩ := ha.step_ram (cfg := cfg) env
  rw [hst.1] at h1 h3 h4
  exact ⟨s.idle_flash.trans h1, h3, h4, by rw [h2]; exact Res.deliver_none hst.2.1⟩

/-- The same outside world with another signing function. -/
def Env.withSign (env : Env) (f : Curve → Path → Bytes → Option Bytes) : Env :=
  { env with cr := { env.cr with sign := f } }

theorem ofKey_withSign (env : Env) (f : Curve → Path → Bytes → Option Bytes) (c : Curve) (k : Bytes) :
    Addr.ofKey (env.withSign f).cr c k = Addr.ofKey env.cr c k := rfl

theorem newAddr_withSign (env : Env) (f : Curve → Path → Bytes → Option Bytes) (c : Curve) (p : Path) :
    newAddr (env.withSign f).cr c p = newAddr env.cr c p := rfl

/-- C46: the version, public key, watermark and authorized-key queries do not sign at all: with any other signing
function in the place of the real one, the app answers the same and does the same. -/
theorem C46_queries_do_not_sign (cfg : Config) (env : Env) (buf : Bytes) (rx : Nat) (s : Dev) (ins : UInt8)
    (hi : buf[1]? = some ins) (hin : ins ∈ queryInstructions) (f : Curve → Path → Bytes → Option Bytes) :
    s.step cfg (env.withSign f) (.apdu buf rx) = s.step cfg env (.apdu buf rx) := by
  simp only [Dev.step]
  split
  · congr 1
    unfold Dev.dispatch
    split
    · rfl
    · split
      · rfl
      · have h1 : buf.getD 1 0 = ins := by rw [List.getD_eq_getElem?_getD, hi]; rfl
        rw [h1]
        cases hc : command cfg.build ins with
        | none => rfl
        | some c =>
          have hq := command_query _ hin hc
          cases c with
          | queryAuth wc =>
            have hs : ∀ k a, s.show (env.withSign f) (.query k a wc) = s.show env (.query k a wc) := fun _ _ => rfl
            simp only [Dev.exec, Dev.cmdQueryAuth, newAddr_withSign, hs]
            rfl
          | getKey => rfl
          | promptAddr =>
            have hs : ∀ a k w, s.show (env.withSign f) (.addr a k w) = s.show env (.addr a k w) := fun _ _ _ => rfl
            simp only [Dev.exec, Dev.cmdAddr, ofKey_withSign, hs]
            rfl
          | getAddr =>
            have hs : ∀ a k w, s.show (env.withSign f) (.addr a k w) = s.show env (.addr a k w) := fun _ _ _ => rfl
            simp only [Dev.exec, Dev.cmdAddr, ofKey_withSign, hs]
            rfl
          | _ => first | (cases hq; done) | rfl
  · rfl

/-- C46: an HMAC request signs nothing but one constant, which the host cannot choose: a signing function that agrees
with the real one on that constant gives the same answer. -/
theorem C46_hmac_signs_a_constant (cfg : Config) (env : Env) (buf : Bytes) (rx : Nat) (s : Dev)
    (hi : buf[1]? = some 0x0E) (f : Curve → Path → Bytes → Option Bytes)
    (hf : ∀ c p, f c p hmacKeySha256 = env.cr.sign c p hmacKeySha256) :
    s.step cfg (env.withSign f) (.apdu buf rx) = s.step cfg env (.apdu buf rx) := by
  simp only [Dev.step]
  split
  · congr 1
    unfold Dev.dispatch
    split
    · rfl
    · split
      · rfl
      · have h1 : buf.getD 1 0 = 0x0E := by rw [List.getD_eq_getElem?_getD, hi]; rfl
        rw [h1]
        cases hb : cfg.build with
        | wallet => rfl
        | baking =>
          have : command .baking 0x0E = some .hmac := by decide
          rw [this]
          simp only [Dev.exec, Dev.cmdHmac, Env.withSign, hf]
  · rfl

/-- C46: the data of an HMAC answer is the HMAC of the host's message under a key made of the hash of the signature
of that constant. -/
theorem C46_hmac_answer (cfg : Config) (env : Env) (ev : Event) (buf : Bytes) (rx : Nat) (s : Dev) (d : Bytes)
    (hrec : Received cfg s ev buf rx .hmac) (hr : (s.step cfg env ev).2.reply = some (d ++ [0x90, 0x00])) :
    ∃ curve path msg sig key, Curve.ofByte (buf.getD 3 0) = some curve ∧
      apduPayload buf = some (Path.serialize path ++ msg) ∧ env.cr.sign curve path hmacKeySha256 = some sig ∧
      env.cr.sha512 sig = some key ∧ env.cr.hmac key msg = some d := by
  rw [hrec.step] at hr
  simp only [Dev.exec] at hr
  generalize hpl : apduPayload buf = payload at hr
  have noerr : ∀ (e : ApduError), e ≠ .success → (s.fail e).deliver.2.reply ≠ some (d ++ [0x90, 0x00]) := by
    intro e he h
    have : statusWord e = d ++ [0x90, 0x00] := by simpa [Dev.fail, Res.deliver] using h
    have hl := congrArg List.length this
    have : d = [] := by
      cases d with
      | nil => rfl
      | cons x xs => simp [statusWord, beEnc] at hl
    subst this
    cases e <;> first | exact absurd rfl he | (revert this; decide)
  unfold Dev.cmdHmac at hr
  cases hc : Curve.ofByte (buf.getD 3 0) with
  | none => rw [hc] at hr; exact absurd hr (noerr _ (by decide))
  | some curve =>
    rw [hc] at hr
    cases payload with
    | none => exact absurd hr (noerr _ (by decide))
    | some p =>
      simp only at hr
      split at hr
      · exact absurd hr (noerr _ (by decide))
      · split at hr
        · exact absurd hr (noerr _ (by decide))
        · rename_i h0 hn
          split at hr
          · exact absurd hr (noerr _ (by decide))
          · rename_i path hpath
            split at hr
            · exact absurd hr (noerr _ (by decide))
            · rename_i sig hsig
              split at hr
              · exact absurd hr (noerr _ (by decide))
              · rename_i key hkey
                split at hr
                · exact absurd hr (noerr _ (by decide))
                · rename_i mac hmac
                  have hd : d = mac := by
                    have : mac ++ statusWord .success = d ++ [0x90, 0x00] := by simpa [Dev.ok, Res.deliver] using hr
                    rw [statusWord_success] at this
                    exact (List.append_cancel_right this).symm
                  subst hd
                  refine ⟨curve, path, p.drop (1 + 4 * (p.getD 0 0).toNat), sig, key, rfl, ?_, hsig, hkey, hmac⟩
                  obtain ⟨_, _, _, hs⟩ := Path.read_ok.mp hpath
                  have hs' : path.serialize = p.take (1 + 4 * (p.getD 0 0).toNat) := hs.symm
                  rw [hs', List.take_append_drop]

/-! ### C55 -/

/-- C55: if the declared length does not go beyond the bytes received, the app does the same whatever else is in the
exchange buffer, and the data of the command are the declared number of received bytes. The missing part, a declared
length beyond the received bytes, is `C55_stale_bytes_are_used`. -/
theorem C55_only_received_bytes_partial (cfg : Config) (env : Env) (s : Dev) (buf buf' : Bytes) (rx n : Nat)
    (hlen : buf'.length = buf.length) (hrx : rx ≤ buf.length) (htake : buf'.take rx = buf.take rx)
    (hn : 5 + n ≤ rx) (h4 : buf[4]? = some (UInt8.ofNat n)) (hn' : n ≤ 255) :
    s.step cfg env (.apdu buf' rx) = s.step cfg env (.apdu buf rx) ∧
    apduPayload buf = some (((buf.take rx).drop 5).take n) := by
  have get : ∀ i, i < rx → buf'[i]? = buf[i]? := by
    intro i hi
    have := congrArg (fun l : Bytes => l[i]?) htake
    simpa [List.getElem?_take, hi] using this
  have getD : ∀ i, i < rx → buf'.getD i 0 = buf.getD i 0 := by
    intro i hi
    rw [List.getD_eq_getElem?_getD, List.getD_eq_getElem?_getD, get i hi]
  have e4 : (buf.getD 4 0).toNat = n := by
    rw [List.getD_eq_getElem?_getD, h4, Option.getD_some, UInt8.toNat_ofNat']
    omega
  have sl : ∀ l : Bytes, slice l 5 n = ((l.take rx).drop 5).take n := by
    intro l
    unfold slice
    rw [List.drop_take, List.take_take]
    congr 1
    omega
  have hp : apduPayload buf = some (((buf.take rx).drop 5).take n) := by
    unfold apduPayload
    simp only [e4]
    rw [if_pos (by omega), sl]
  have hp' : apduPayload buf' = some (((buf.take rx).drop 5).take n) := by
    unfold apduPayload
    simp only [getD 4 (by omega), e4]
    rw [if_pos (by omega), sl, htake]
  refine ⟨?_, hp⟩
  simp only [Dev.step, Dev.dispatch, hlen, hp, hp', getD 0 (by omega), getD 1 (by omega), getD 2 (by omega),
    getD 3 (by omega)]

open Demo in
set_option maxRecDepth 100000 in
/-- C55 is false of this code: the same five received bytes, a reset command declaring four bytes of data, set the
watermark to whatever the exchange buffer happens to contain. -/
theorem C55_stale_bytes_are_used : ∃ (buf buf' : Bytes), buf.length = 260 ∧ buf'.length = 260 ∧
    buf.take 5 = buf'.take 5 ∧
    ((Dev.factory ⟨.small, []⟩).step bakingApp fine (.apdu buf 5)).2 = ((Dev.factory ⟨.small, []⟩).step bakingApp fine (.apdu buf' 5)).2 ∧
    ((Dev.factory ⟨.small, []⟩).step bakingApp fine (.apdu buf 5)).2.reply = some [0x90, 0x00] ∧
    ((Dev.factory ⟨.small, []⟩).step bakingApp fine (.apdu buf 5)).1.main.read = .ok (WaterMark.encode (.emmy 1 false)) ∧
    ((Dev.factory ⟨.small, []⟩).step bakingApp fine (.apdu buf' 5)).1.main.read = .ok (WaterMark.encode (.emmy 2 false)) :=
  ⟨[0x80, 0x06, 0, 0, 4] ++ [0, 0, 0, 1] ++ List.replicate 251 0,
    [0x80, 0x06, 0, 0, 4] ++ [0, 0, 0, 2] ++ List.replicate 251 0, by decide +kernel⟩

/-! ### Cases -/

namespace Demo

/-- A block with a Tenderbake fitness of five bytes. -/
def shortBlock : Bytes :=
  [0x11] ++ mainnet ++ be32 9 ++ List.replicate 74 0 ++ [0, 0, 0, 5] ++ [0, 0, 0, 1, 2]

/-- The answer to the last event. -/
def last (cfg : Config) (es : List (Env × Event)) : Option Output := (fresh.run cfg es).2.getLast?

set_option maxRecDepth 100000 in
/-- C28: data, an error, a review and an abort. -/
example :
    last bakingApp (ok [apdu 0x00 0 0 []]) = some ⟨some [1, 2, 1, 0, 0x90, 0x00], none, none⟩ ∧
    last bakingApp (ok [apdu 0x02 0 9 keyPath]) = some ⟨some [0x6B, 0x00], none, none⟩ ∧
    last bakingApp (ok [apdu 0xA1 1 0 keyPath]) = some .quiet ∧
    ((fresh.run bakingApp (ok [apdu 0xA1 1 0 keyPath])).1.view.isSome ∧
      isReview (fresh.run bakingApp (ok [apdu 0xA1 1 0 keyPath])).1.zui.screen = true) ∧
    last bakingApp (setup 5 ++ sign shortBlock) = some ⟨none, none, some .panic⟩ := by
  decide +kernel

set_option maxRecDepth 100000 in
/-- C29: a wallet signs a reviewed message, refuses a reset, and its records are as shipped. -/
example :
    let r := fresh.run walletApp (signReview 0x04 [5, 1, 2, 3] 2 ++ reset 9)
    (r.2.any fun o => o.sig.isSome) = true ∧ r.2.getLast? = some ⟨some [0x69, 0x86], none, none⟩ ∧
    r.1.main = fresh.main ∧ r.1.key = fresh.key := by
  decide +kernel

set_option maxRecDepth 100000 in
/-- C46: queries with a pending signing key in RAM and an authorized key and a watermark in flash. -/
example :
    let s := (fresh.run bakingApp (setup 5 ++ ok [apdu 0x12 0 0 keyPath2, apdu 0x12 0x81 0 [5, 1, 2, 3]])).1
    s.path = some ([0x8000002c, 0x800006c1, 0x80000000], .ed25519) ∧ s.storedKey.isSome ∧
    (s.step bakingApp fine (apdu 0x08 0 0 [])).2.reply = some [0, 0, 0, 5, 0x90, 0x00] ∧
    (s.step bakingApp fine (apdu 0x0D 0 0 [])).2.reply = some ([0] ++ keyPath ++ [0x90, 0x00]) ∧
    (s.step bakingApp fine (apdu 0x0D 1 0 [])).2.reply = none ∧
    (s.step bakingApp fine (apdu 0x0E 0 0 (keyPath ++ [1, 2, 3]))).2.reply.map List.length = some 34 := by
  decide +kernel

set_option maxRecDepth 100000 in
/-- C55: the same two bytes more in the buffer, not received and not declared, make no difference. -/
example :
    let buf := [0x80, 0x06, 0, 0, 4] ++ [0, 0, 0, 1] ++ List.replicate 251 7
    let buf' := [0x80, 0x06, 0, 0, 4] ++ [0, 0, 0, 1] ++ List.replicate 251 9
    buf ≠ buf' ∧ buf'.take 9 = buf.take 9 ∧ buf[4]? = some (UInt8.ofNat 4) ∧
    (fresh.step bakingApp fine (.apdu buf 9)).2.reply = some [0x90, 0x00] := by
  decide +kernel

end Demo

end Tezos
