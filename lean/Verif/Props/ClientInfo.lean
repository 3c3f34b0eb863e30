import Verif.ClientInfo
import Verif.Spec.Words
import Verif.Props.ClientCalls
/-
C81: what the client library says of the running app. C82: what it says of a failed call.
-/
set_option linter.unusedSimpArgs false
namespace Tezos
open Spec

/-! ### The running app -/

theorem asciiText_of {b : Bytes} (h : ∀ c ∈ b, c.toNat < 128) : asciiText b = b := by
  unfold asciiText
  have hb : ∀ c : UInt8, c.toNat < 128 → c &&& 0x7f = c := fun c =>
    forall_u8 (P := fun c => c.toNat < 128 → c &&& 0x7f = c) (by decide +kernel) c
  induction b with
  | nil => rfl
  | cons c cs ih =>
    rw [List.map_cons, hb c (h c (by simp)), ih fun x hx => h x (List.mem_cons_of_mem _ hx)]

theorem getAppInfo_answer {r : Bytes} (d : Bytes) (h : r = d ++ [0x90, 0x00]) :
    getAppInfo r = ⟨0x9000, some (readAppInfo r)⟩ := by
  have hs : statusOf r = 0x9000 := by rw [h, statusOf_append]; decide
  unfold getAppInfo
  rw [if_neg (by rw [h]; simp), if_pos hs, hs]

theorem readAppInfo_answer (i : AppInfo) (h : i.Proper) (x : UInt8) (tail : Bytes)
    (hx : i.flags ++ [0x90, 0x00] = x :: tail) :
    readAppInfo i.answer = appInfoBody i.name i.version (some (UInt8.ofNat i.flags.length)) (some x) := by
  obtain ⟨⟨hn, ha⟩, ⟨hv, hb⟩, hf⟩ := h
  have en : (UInt8.ofNat i.name.length).toNat = i.name.length := by rw [UInt8.toNat_ofNat']; omega
  have ev : (UInt8.ofNat i.version.length).toNat = i.version.length := by rw [UInt8.toNat_ofNat']; omega
  have e : i.answer = [1, UInt8.ofNat i.name.length] ++ (i.name ++ (UInt8.ofNat i.version.length ::
      (i.version ++ UInt8.ofNat i.flags.length :: x :: tail))) := by
    simp only [AppInfo.answer, ← hx, List.cons_append, List.nil_append, List.append_assoc]
  have e1 : slice i.answer 2 i.name.length = i.name := by
    rw [e]
    exact slice_append_mid (a := [1, _]) rfl rfl
  have e2 : i.answer[2 + i.name.length]? = some (UInt8.ofNat i.version.length) := by
    rw [e, List.getElem?_append_right (by simp), List.getElem?_append_right (by simp)]
    simp
  have e3 : slice i.answer (2 + i.name.length + 1) i.version.length = i.version := by
    rw [e, show [1, UInt8.ofNat i.name.length] ++ (i.name ++ (UInt8.ofNat i.version.length ::
      (i.version ++ UInt8.ofNat i.flags.length :: x :: tail))) = ([1, UInt8.ofNat i.name.length] ++ i.name ++
      [UInt8.ofNat i.version.length]) ++ i.version ++ (UInt8.ofNat i.flags.length :: x :: tail) by simp]
    refine slice_append_mid (a := [1, UInt8.ofNat i.name.length] ++ i.name ++ [UInt8.ofNat i.version.length]) ?_ rfl
    simp only [List.length_append, List.length_cons, List.length_nil]
  have e4 : ∀ k, i.answer[2 + i.name.length + 1 + i.version.length + k]? =
      (UInt8.ofNat i.flags.length :: x :: tail)[k]? := by
    intro k
    rw [e, show [1, UInt8.ofNat i.name.length] ++ (i.name ++ (UInt8.ofNat i.version.length ::
      (i.version ++ UInt8.ofNat i.flags.length :: x :: tail))) = ([1, UInt8.ofNat i.name.length] ++ i.name ++
      [UInt8.ofNat i.version.length] ++ i.version) ++ (UInt8.ofNat i.flags.length :: x :: tail) by simp,
      List.getElem?_append_right (by simp; omega)]
    congr 1
    simp
    omega
  have e5 : i.answer.getD 0 0 = 1 := by rw [e]; rfl
  have e6 : i.answer.getD 1 0 = UInt8.ofNat i.name.length := by rw [e]; rfl
  unfold readAppInfo
  rw [if_neg (by rw [e5]; decide)]
  simp only [e6, en, e1, e2, ev, e3, asciiText_of ha, asciiText_of hb]
  rw [e4 1, show i.answer[2 + i.name.length + 1 + i.version.length]? = _ from e4 0]
  rfl

theorem flag_bits (f : UInt8) :
    (decide (f &&& 1 ≠ 0) = f.toNat.testBit 0 ∧ decide (f &&& 2 ≠ 0) = f.toNat.testBit 1) ∧
    decide (f &&& 4 ≠ 0) = f.toNat.testBit 2 ∧ decide (f &&& 128 ≠ 0) = f.toNat.testBit 7 :=
  forall_u8 (P := fun f => (decide (f &&& 1 ≠ 0) = f.toNat.testBit 0 ∧ decide (f &&& 2 ≠ 0) = f.toNat.testBit 1) ∧
    decide (f &&& 4 ≠ 0) = f.toNat.testBit 2 ∧ decide (f &&& 128 ≠ 0) = f.toNat.testBit 7) (by decide +kernel) f

/-- C81, the part that holds: if the operating system reports an app with at least one byte of flags, `getAppInfo`
returns its name, its version, the first byte of the flags, and the bits 0, 1, 2 and 7 of this under their names. Any
status word but 0x9000 is returned as the error. Missing: answers without flags and in other formats, for which it is
false (`C81_no_flags`, `C81_unknown_format`). -/
theorem C81_app_info_partial (i : AppInfo) (h : i.Proper) (f : UInt8) (fs : Bytes) (hf : i.flags = f :: fs) :
    getAppInfo i.answer = ⟨0x9000, some
      { appName := i.name, appVersion := i.version, flagLen := some (UInt8.ofNat i.flags.length), flagsValue := some f,
        flagRecovery := f.toNat.testBit 0, flagSignedMcuCode := f.toNat.testBit 1, flagOnboarded := f.toNat.testBit 2,
        flagPinValidated := f.toNat.testBit 7 }⟩ := by
  rw [getAppInfo_answer (r := i.answer) _ rfl, readAppInfo_answer i h f (fs ++ [0x90, 0x00]) (by rw [hf]; rfl)]
  obtain ⟨⟨h0, h1⟩, h2, h7⟩ := flag_bits f
  simp only [appInfoBody, Option.getD_some, h0, h1, h2, h7]

/-- C81, errors: an answer with another status word than 0x9000 is returned as this error. -/
theorem C81_refused (d : Bytes) (a b : UInt8) (h : a.toNat * 256 + b.toNat ≠ 0x9000) :
    getAppInfo (d ++ [a, b]) = ⟨a.toNat * 256 + b.toNat, none⟩ := by
  unfold getAppInfo
  rw [if_neg (by simp), if_neg (by rw [statusOf_append]; exact h), statusOf_append]

/-- C81 is false for an app without flags: the first byte of the status word is taken for them, and the client says that
the PIN was validated. -/
theorem C81_no_flags (i : AppInfo) (h : i.Proper) (hf : i.flags = []) :
    ∃ b, getAppInfo i.answer = ⟨0x9000, some b⟩ ∧ b.flagsValue = some 0x90 ∧ b.flagPinValidated = true := by
  refine ⟨_, getAppInfo_answer _ rfl, ?_⟩
  rw [readAppInfo_answer i h 0x90 [0x00] (by rw [hf]; rfl)]
  exact ⟨rfl, rfl⟩

/-- C81 is false for answers in another format than 1: they are returned as a success, without an error message, for an
app called `err`. -/
theorem C81_unknown_format (f : UInt8) (d : Bytes) (h : f ≠ 1) :
    (getAppInfo (f :: d ++ [0x90, 0x00])).returnCode = 0x9000 ∧
    (getAppInfo (f :: d ++ [0x90, 0x00])).errorMessage = "No errors" ∧
    (getAppInfo (f :: d ++ [0x90, 0x00])).body.map (·.appName) = some [0x65, 0x72, 0x72] := by
  rw [getAppInfo_answer (f :: d) rfl]
  refine ⟨rfl, show errorCodeToString 0x9000 = _ by decide +kernel, ?_⟩
  unfold readAppInfo
  rw [if_pos (by exact h)]
  rfl

/-- The app "Tezos", version "2.2", on a device that is set up and unlocked. -/
example : ∃ i : AppInfo, i.Proper ∧ i.answer = [1, 5, 0x54, 0x65, 0x7a, 0x6f, 0x73, 3, 0x32, 0x2e, 0x32, 1, 0x84, 0x90, 0] ∧
    getAppInfo i.answer = ⟨0x9000, some ⟨[0x54, 0x65, 0x7a, 0x6f, 0x73], [0x32, 0x2e, 0x32], some 1, some 0x84, false,
      false, true, true⟩⟩ :=
  ⟨⟨[0x54, 0x65, 0x7a, 0x6f, 0x73], [0x32, 0x2e, 0x32], [0x84]⟩,
    ⟨by decide, by decide, by decide⟩, by decide +kernel, by decide +kernel⟩

/-! ### Status words -/

/-- Every status word of the app has its text in the client. -/
theorem statusTexts_code (e : ApduError) : ∃ w ∈ statusTexts, w.1 = e.code.toNat ∧ errorCodeToString w.1 = w.2 := by
  cases e <;> decide +kernel

theorem statusOf_word (d : Bytes) (e : ApduError) : statusOf (d ++ statusWord e) = e.code.toNat := by
  have : statusWord e = [UInt8.ofNat (e.code.toNat / 256), UInt8.ofNat e.code.toNat] := by
    cases e <;> decide
  rw [this, statusOf_append]
  cases e <;> decide

theorem Res.deliver_word (r : Res) {a : Bytes} (h : r.deliver.2.reply = some a)
    (he : ∀ b, r.out = .shown (some b) → b = [0x69, 0x86]) : ∃ d e, a = d ++ statusWord e := by
  unfold Res.deliver at h
  split at h
  · exact ⟨_, _, (Option.some.inj h).symm⟩
  · exact ⟨[], _, (Option.some.inj h).symm⟩
  · rename_i early ho
    cases h
    exact ⟨[], .commandNotAllowed, he a ho⟩
  · cases h

/-- An approval does not open another review, and is not answered like a rejection. -/
theorem View.accept_out (env : Env) (v : View) (s : Dev) :
    (∀ e, (v.accept env s).out ≠ .shown e) ∧ (v.accept env s).out ≠ .err .commandNotAllowed := by
  have after : ∀ (s : Dev) (w : WriteRes) (e : ApduError) (k : Dev → Res), e ≠ .commandNotAllowed →
      (∀ s, (∀ e, (k s).out ≠ .shown e) ∧ (k s).out ≠ .err .commandNotAllowed) →
      (∀ x, (s.afterWrite w e k).out ≠ .shown x) ∧ (s.afterWrite w e k).out ≠ .err .commandNotAllowed := by
    intro s w e k he hk
    cases w with
    | ok => exact hk s
    | err => exact ⟨fun x hx => (by cases hx), fun hx => he (HRes.err.inj hx)⟩
    | powerLoss => exact ⟨fun x hx => (by cases hx), fun hx => (by cases hx)⟩
    | panic => exact ⟨fun x hx => (by cases hx), fun hx => (by cases hx)⟩
  have good : ∀ (s : Dev) (d : Bytes), (∀ e, (s.ok d).out ≠ .shown e) ∧ (s.ok d).out ≠ .err .commandNotAllowed :=
    fun s d => ⟨fun x hx => (by cases hx), fun hx => (by cases hx)⟩
  have bad : ∀ (s : Dev) (e : ApduError), e ≠ .commandNotAllowed →
      (∀ x, (s.fail e).out ≠ .shown x) ∧ (s.fail e).out ≠ .err .commandNotAllowed :=
    fun s e he => ⟨fun x hx => (by cases hx), fun hx => he (HRes.err.inj hx)⟩
  have dead : ∀ (s : Dev) (f : Fault), (∀ x, (s.fault f).out ≠ .shown x) ∧ (s.fault f).out ≠ .err .commandNotAllowed :=
    fun s f => ⟨fun x hx => (by cases hx), fun hx => (by cases hx)⟩
  cases v with
  | sign h d r m =>
    simp only [View.accept]
    split
    · exact bad _ _ (by decide)
    · split
      · exact bad _ _ (by decide)
      · exact ⟨fun x hx => (by cases hx), fun hx => (by cases hx)⟩
  | bakingSign h d r o m =>
    simp only [View.accept, Dev.bakingSign, Dev.withKey, Dev.withRead]
    split
    · split
      · rename_i e he
        refine bad _ _ ?_
        rintro rfl
        unfold PathAndCurve.tryFromBytes at he
        split at he
        · cases he
        · split at he
          · cases he
          · dsimp only at he
            split at he
            · cases he
            · split at he <;> cases he
      · exact bad _ _ (by decide)
      · split
        · exact bad _ _ (by decide)
        · exact ⟨fun x hx => (by cases hx), fun hx => (by cases hx)⟩
    · exact bad _ _ (by decide)
    · exact dead _ _
  | addr a k w =>
    simp only [View.accept]
    split
    · split
      · exact dead _ _
      · exact good _ _
    · exact good _ _
  | authorize k a =>
    simp only [View.accept]
    split
    · exact bad _ _ (by decide)
    · exact after _ _ _ _ (by decide) fun s => good s _
  | deauthorize a => exact after _ _ _ _ (by decide) fun s => good s _
  | query k a w => exact good _ _
  | setup k a m t ch =>
    simp only [View.accept]
    split
    · exact bad _ _ (by decide)
    · exact after _ _ _ _ (by decide) fun s => after _ _ _ _ (by decide) fun s => after _ _ _ _ (by decide) fun s =>
        after _ _ _ _ (by decide) fun s => good s _

/-- Whatever the device sends ends with a status word of its table. -/
theorem Dev.step_word {cfg : Config} {env : Env} {ev : Event} {s : Dev} {a : Bytes}
    (h : (s.step cfg env ev).2.reply = some a) : ∃ d e, a = d ++ statusWord e := by
  by_cases hb : ev.isButton = true
  · by_cases h1 : a = [0x69, 0x86]
    · exact ⟨[], .commandNotAllowed, h1⟩
    · by_cases h2 : a = statusWord .dataInvalid
      · exact ⟨[], .dataInvalid, h2⟩
      · obtain ⟨v, -, hr, -⟩ := Dev.button_says hb h h1 h2
        exact (v.accept env s.idle).deliver_word hr fun b hb => absurd hb ((v.accept_out env s.idle).1 _)
  · cases ev with
    | apdu buf rx =>
      cases hrun : s.running with
      | false => rw [(Dev.step_stopped hrun).1] at h; cases h
      | true =>
        simp only [Dev.step, hrun, if_true] at h
        refine Res.deliver_word _ h fun b hb => ?_
        unfold Dev.dispatch at hb
        split at hb
        · cases hb
        · split at hb
          · cases hb
          · split at hb
            · cases hb
            · exact Dev.exec_says hb
    | _ => exact absurd rfl hb

/-- C82, texts: whatever happens, each answer of the device ends with a status word for which the client has the text it
should have. -/
theorem C82_described (cfg : Config) (s : Dev) (es : List (Env × Event)) (m : Moment) (hm : m ∈ s.trace cfg es)
    (a : Bytes) (h : m.out.reply = some a) : ∃ w ∈ statusTexts, statusOf a = w.1 ∧ errorCodeToString (statusOf a) = w.2 := by
  obtain ⟨past, rest, ht⟩ := List.append_of_mem hm
  obtain ⟨_, _, _, _, _, _, hout, _⟩ := Dev.trace_split ht
  rw [hout] at h
  obtain ⟨d, e, rfl⟩ := Dev.step_word h
  obtain ⟨w, hw, h1, h2⟩ := statusTexts_code e
  exact ⟨w, hw, by rw [statusOf_word, h1], by rw [statusOf_word, ← h1, h2]⟩

/-- C82, texts: different status words of the device have different texts in the client. -/
theorem C82_distinct (v w : Nat × String) (hv : v ∈ statusTexts) (hw : w ∈ statusTexts)
    (h : errorCodeToString v.1 = errorCodeToString w.1) : v.1 = w.1 := by
  have : ∀ v ∈ statusTexts, ∀ w ∈ statusTexts, errorCodeToString v.1 = errorCodeToString w.1 → v.1 = w.1 := by
    decide +kernel
  exact this v hv w hw h

/-- A call that sends one command: its data was too long to be sent, or the code returned is the status word of the
device's answer. -/
theorem Talk.code {cfg : Config} {s : Dev} {es : List (Env × Event)} {past t rest : List Moment}
    (h : s.trace cfg es = past ++ (t ++ rest)) {α : Type} {ins p1 p2 : UInt8} {data : Bytes} {acc : List Nat}
    {f : Bytes → Option α} {r : Response α} (ht : Talk ((transport ins p1 p2 data acc).process f) t r) :
    (256 ≤ data.length ∧ r = ⟨0xffff, none⟩) ∨
    ∃ m ∈ t, ∃ a, m.out.reply = some a ∧ r.returnCode = statusOf a ∧ (r.body.isSome → statusOf a ∈ acc) := by
  rcases ht.of_process with ⟨⟨hl, -⟩, hr⟩ | ⟨q, seg, q', a, rfl, hq, hq', he, rfl⟩
  · exact .inl ⟨hl, hr⟩
  · right
    have key : ∃ m ∈ seg, m.out.reply = some a := by
      cases he with
      | @atOnce m hc hr => exact ⟨m, by simp, hr⟩
      | @later m l b hc hn hb hlb hr => exact ⟨l, by simp, hr⟩
    obtain ⟨m, hm, hr⟩ := key
    have hmt : m ∈ s.trace cfg es := by rw [h]; simp [hm]
    have hlen : ¬ a.length < 2 := by
      obtain ⟨p', r', ht'⟩ := List.append_of_mem hmt
      obtain ⟨_, _, _, _, _, _, hout, _⟩ := Dev.trace_split ht'
      have hr' := hr
      rw [hout] at hr'
      obtain ⟨d, e, rfl⟩ := Dev.step_word hr'
      simp [statusWord]
    refine ⟨m, by simp [hm], a, hr, ?_⟩
    rw [if_neg hlen]
    split
    · exact ⟨rfl, fun _ => by assumption⟩
    · exact ⟨rfl, fun h => (by cases h)⟩

/-- A code that says what an answer of the device in `t` says, with its text, or that nothing was answered. -/
def Says (t : List Moment) (code : Nat) : Prop :=
  code = 0xffff ∨ ∃ m ∈ t, ∃ a, m.out.reply = some a ∧ code = statusOf a ∧
    ∃ w ∈ statusTexts, code = w.1 ∧ errorCodeToString code = w.2

theorem Says.mono {t t' : List Moment} {code : Nat} (h : Says t code) (ht : ∀ m ∈ t, m ∈ t') : Says t' code := by
  rcases h with h | ⟨m, hm, h⟩
  · exact .inl h
  · exact .inr ⟨m, ht m hm, h⟩

/-- C82, calls: the code returned by a call that sends one command is the status word of an answer of the device during
the call, or 0xffff if the data was too long to be sent; fields besides it are only returned with a status word that the
call accepts. All calls but those for signing are of this form. -/
theorem C82_call (cfg : Config) (s : Dev) (es : List (Env × Event)) (past t rest : List Moment)
    (h : s.trace cfg es = past ++ (t ++ rest)) {α : Type} (ins p1 p2 : UInt8) (data : Bytes) (acc : List Nat)
    (f : Bytes → Option α) (r : Response α) (ht : Talk ((transport ins p1 p2 data acc).process f) t r) :
    Says t r.returnCode ∧ (r.returnCode = 0xffff ↔ 256 ≤ data.length) ∧ (r.body.isSome → r.returnCode ∈ acc) := by
  rcases Talk.code h ht with ⟨hl, rfl⟩ | ⟨m, hm, a, hr, hc, hacc⟩
  · exact ⟨.inl rfl, ⟨fun _ => hl, fun _ => rfl⟩, fun hb => (by cases hb)⟩
  · obtain ⟨w, hw, h1, h2⟩ := C82_described cfg s es m (by rw [h]; simp [hm]) a hr
    refine ⟨.inr ⟨m, hm, a, hr, hc, w, hw, by rw [hc, h1], by rw [hc, h2]⟩, ⟨fun h9 => ?_, fun hl => ?_⟩,
      fun hb => by rw [hc]; exact hacc hb⟩
    · exfalso
      rw [hc, h1] at h9
      have : ∀ w ∈ statusTexts, w.1 ≠ 0xffff := by decide +kernel
      exact this w hw h9
    · exfalso
      unfold transport at ht
      rw [if_pos hl] at ht
      obtain ⟨rfl, hq⟩ := Talk.of_done (x := (⟨0xffff, none⟩ : Response α)) ht
      rw [(hq m hm).reply] at hr
      cases hr

/-- C82, signing: the same for a signing call. -/
theorem C82_sign (cfg : Config) (s : Dev) (es : List (Env × Event)) (past t rest : List Moment)
    (h : s.trace cfg es = past ++ (t ++ rest)) (js : Js) (c : SignCall) (path message : Bytes) (r : SignResponse)
    (ht : Talk (SignCall.sign js c path message) t r) :
    Says t r.returnCode ∧ (r.body.isSome → r.returnCode = 0x9000) := by
  have chunk : ∀ (idx num : Nat) (x : Bytes) (past t rest : List Moment) (r : SignResponse),
      s.trace cfg es = past ++ (t ++ rest) → Talk (c.sendChunk idx num x) t r →
      Says t r.returnCode ∧ (r.body.isSome → r.returnCode = 0x9000) := by
    intro idx num x past t rest r h ht
    refine ⟨(C82_call cfg s es past t rest h _ _ _ _ _ _ r ht).1, fun hb => ?_⟩
    rcases Talk.of_process ht with ⟨-, rfl⟩ | ⟨q, seg, q', a, rfl, hq, hq', he, rfl⟩
    · cases hb
    · revert hb
      split
      · intro hb; cases hb
      · split
        · intro hb
          unfold SignCall.readAnswer at hb
          dsimp only at hb
          split at hb
          · rename_i h9
            exact h9.1
          · cases hb
        · intro hb; cases hb
  have rest' : ∀ (xs : List Bytes) (num i : Nat) (r0 : SignResponse) (past t rest : List Moment) (r : SignResponse),
      s.trace cfg es = past ++ (t ++ rest) → Talk (c.sendRest num i xs r0) t r → (xs = [] ∧ r = r0) ∨
      (Says t r.returnCode ∧ (r.body.isSome → r.returnCode = 0x9000)) := by
    intro xs
    induction xs with
    | nil =>
      intro num i r0 past t rest r h ht
      exact .inl ⟨rfl, (Talk.of_done (x := r0) ht).1⟩
    | cons x xs ih =>
      intro num i r0 past t rest r h ht
      right
      obtain ⟨t1, t2, r1, rfl, h1, h2⟩ := Talk.bind (c := c.sendChunk (1 + i) num x) ht
      obtain ⟨a1, a2⟩ := chunk _ _ _ past t1 (t2 ++ rest) r1 (by rw [h]; simp) h1
      have a1' : Says (t1 ++ t2) r1.returnCode := a1.mono fun m hm => List.mem_append_left _ hm
      split at h2
      · obtain ⟨rfl, -⟩ := h2.of_done
        exact ⟨a1', a2⟩
      · rcases ih num (i + 1) r1 (past ++ t1) t2 rest r (by rw [h]; simp) h2 with ⟨-, rfl⟩ | ⟨b1, b2⟩
        · exact ⟨a1', a2⟩
        · exact ⟨b1.mono fun m hm => List.mem_append_right _ hm, b2⟩
  unfold SignCall.sign at ht
  split at ht
  · obtain ⟨rfl, -⟩ := ht.of_done
    exact ⟨.inl rfl, fun hb => (by cases hb)⟩
  · unfold prepareChunks SignCall.sendAll at ht
    obtain ⟨t1, t2, r1, rfl, h1, h2⟩ := Talk.bind ht
    obtain ⟨a1, a2⟩ := chunk _ _ _ past t1 (t2 ++ rest) r1 (by rw [h]; simp) h1
    rcases rest' _ _ _ _ (past ++ t1) t2 rest r (by rw [h]; simp) h2 with ⟨-, rfl⟩ | ⟨b1, b2⟩
    · exact ⟨a1.mono fun m hm => List.mem_append_left _ hm, fun hb => (by cases hb)⟩
    · exact ⟨b1.mono fun m hm => List.mem_append_right _ hm, b2⟩

/-! ### Rejections -/

/-- C82, rejection, the part that holds: if the user's button press is answered with 0x6986, "Transaction rejected", then
the review is over, nothing was signed and no record has changed. Missing: that the user was asked at all, which is false
of commands that are refused with the same status word (`C82_nobody_was_asked`). -/
theorem C82_rejected_partial (cfg : Config) (s : Dev) (es : List (Env × Event)) (m : Moment) (hm : m ∈ s.trace cfg es)
    (hb : m.ev.isButton = true) (a : Bytes) (h : m.out.reply = some a)
    (ht : errorCodeToString (statusOf a) = "Transaction rejected") :
    a = [0x69, 0x86] ∧ m.out.sig = none ∧ (∃ v, m.st.view = some v) ∧ (m.next cfg).view = none ∧
    (m.next cfg).storedKey = m.st.storedKey ∧ SameFlash m.st (m.next cfg) := by
  obtain ⟨past, rest, hs⟩ := List.append_of_mem hm
  obtain ⟨_, _, _, _, _, _, hout, _⟩ := Dev.trace_split hs
  rw [hout] at h ⊢
  have h86 : statusOf a = 0x6986 := by
    obtain ⟨w, hw, h1, h2⟩ := C82_described cfg s es m hm a (by rw [hout]; exact h)
    have : ∀ w ∈ statusTexts, w.2 = "Transaction rejected" → w.1 = 0x6986 := by decide +kernel
    rw [h1]
    exact this w hw (h2.symm.trans ht)
  have not : ∀ v, ¬ Approves m.st m.ev v := by
    intro v hv
    have hr := (hv.step (cfg := cfg) m.env).2.2
    rw [h] at hr
    obtain ⟨n1, n2⟩ := v.accept_out m.env m.st.idle
    unfold Res.deliver at hr
    split at hr
    · rw [Option.some.inj hr, statusOf_word] at h86
      revert h86; decide
    · rename_i e he
      have hs := statusOf_word [] e
      rw [List.nil_append, ← Option.some.inj hr, h86] at hs
      refine n2 (he.trans ?_)
      congr 1
      revert hs
      cases e <;> decide
    · rename_i e he
      exact n1 e he
    · cases hr
  have ha : a = [0x69, 0x86] := by
    by_contra hne
    by_cases h2 : a = statusWord .dataInvalid
    · rw [h2] at h86
      revert h86; decide
    · obtain ⟨v, hv, -, -⟩ := Dev.button_says hb h hne h2
      exact not v hv
  obtain ⟨hv, hn⟩ := Dev.button_reply hb h
  have hstill : SameFlash m.st (m.next cfg) ∧ (m.st.step cfg m.env m.ev).2.sig = none := by
    have hc := m.st.step_cases cfg m.env m.ev
    unfold Moment.next
    cases hc with
    | still h1 h2 => exact ⟨h1, h2⟩
    | accept v hv => exact absurd hv (not v)
    | command buf rx c hrec =>
      rw [hrec.1] at hb
      cases hb
    | relaunch h1 h2 h3 =>
      rw [h2] at h
      cases h
  refine ⟨ha, hstill.2, hv, hn, ?_, hstill.1⟩
  unfold Dev.storedKey
  rw [hstill.1.key]

/-- A call for the baking app, made to the wallet. -/
theorem Talk.wallet {cfg : Config} (hw : cfg.build = .wallet) {s : Dev} {es : List (Env × Event)}
    {past t rest : List Moment} (h : s.trace cfg es = past ++ (t ++ rest)) {α : Type} {ins p1 p2 : UInt8}
    (hi : ins ∈ bakingOnly) {data : Bytes} (hl : data.length < 256) {f : Bytes → Option α} {r : Response α}
    (ht : Talk ((transport ins p1 p2 data).process f) t r) :
    r = ⟨0x6986, none⟩ ∧ ∀ m ∈ t, m.Quiet ∨ m.next cfg = m.st := by
  have step : ∀ (s : Dev) (env : Env) (ev : Event), s.running = true → Carries ev ins p1 p2 data →
      s.step cfg env ev = (s, ⟨some [0x69, 0x86], none, none⟩) := by
    intro s env ev hrun hc
    obtain ⟨tail, rfl, htl⟩ := hc.ex
    exact C29_refused cfg env _ _ s hrun (by simp; omega) rfl ins rfl (.inl ⟨hw, hi⟩)
  rcases ht.of_process with ⟨⟨hl', -⟩, -⟩ | ⟨q, seg, q', a, rfl, hq, hq', he, rfl⟩
  · omega
  · cases he with
    | @atOnce m hc hr =>
      have h' : s.trace cfg es = (past ++ q) ++ m :: (q' ++ rest) := by rw [h]; simp
      obtain ⟨ea, eb, hes, _, _, _, hout, _⟩ := Dev.trace_split h'
      have hrun : m.st.running = true := by
        cases hb : m.st.running with
        | true => rfl
        | false => rw [hout, (Dev.step_stopped hb).1] at hr; cases hr
      have hst := step m.st m.env m.ev hrun hc
      rw [hout, hst] at hr
      obtain rfl := Option.some.inj hr
      refine ⟨by rw [if_neg (by decide), if_neg (by decide)]; rfl, fun y hy => ?_⟩
      rcases List.mem_append.mp hy with hy | hy
      · rcases List.mem_append.mp hy with hy | hy
        · exact .inl (hq y hy)
        · obtain rfl := List.mem_singleton.mp hy
          right
          unfold Moment.next
          rw [hst]
      · exact .inl (hq' y hy)
    | @later m l b hc hn hb hlb hr =>
      exfalso
      have h' : s.trace cfg es = (past ++ q) ++ m :: (b ++ l :: (q' ++ rest)) := by rw [h]; simp
      obtain ⟨tail, hev, -⟩ := hc.ex
      obtain ⟨v, hop, -, -⟩ := answered_later h' hev hn (fun y hy => (hb y hy).button) hlb hr
      obtain ⟨c, _, _, hcmd, hrun, -⟩ := hc.opens hop
      have := hop.quiet.1
      rw [step _ _ _ hrun hc] at this
      cases this

/-- C82 is false of the message "Transaction rejected": the wallet app answers the calls meant for the baking app with
it, although nobody was asked: apart from the user's own button presses, nothing happened on the device. -/
theorem C82_nobody_was_asked (cfg : Config) (hw : cfg.build = .wallet) (s : Dev) (es : List (Env × Event))
    (past t rest : List Moment) (h : s.trace cfg es = past ++ (t ++ rest)) :
    (∀ r, Talk deauthorizeBaking t r → r = ⟨0x6986, none⟩ ∧ r.errorMessage = "Transaction rejected" ∧
      ∀ m ∈ t, m.Quiet ∨ m.next cfg = m.st) ∧
    (∀ confirm r, Talk (queryAuthKey confirm) t r → r = ⟨0x6986, none⟩ ∧ r.errorMessage = "Transaction rejected" ∧
      ∀ m ∈ t, m.Quiet ∨ m.next cfg = m.st) ∧
    (∀ r, Talk legacyGetHighWatermark t r → r = ⟨0x6986, none⟩ ∧ r.errorMessage = "Transaction rejected" ∧
      ∀ m ∈ t, m.Quiet ∨ m.next cfg = m.st) := by
  have text : ∀ α : Type, (⟨0x6986, none⟩ : Response α).errorMessage = "Transaction rejected" := fun α =>
    show errorCodeToString 0x6986 = _ by decide +kernel
  refine ⟨fun r ht => ?_, fun confirm r ht => ?_, fun r ht => ?_⟩
  · obtain ⟨h1, h2⟩ := Talk.wallet hw h (by decide) (by decide) ht
    exact ⟨h1, by rw [h1]; exact text _, h2⟩
  · obtain ⟨h1, h2⟩ := Talk.wallet hw h (by decide) (by decide) ht
    exact ⟨h1, by rw [h1]; exact text _, h2⟩
  · obtain ⟨h1, h2⟩ := Talk.wallet hw h (by decide) (by decide) ht
    exact ⟨h1, by rw [h1]; exact text _, h2⟩

namespace Demo

/-- The hypotheses of `C82_rejected_partial`: `showAddressAndPubKey`, and the user goes to the reject item. -/
def walletRejects : List (Env × Event) := ok (apdu 0x11 1 0 keyPath :: List.replicate 3 .right ++ [.both])

set_option maxRecDepth 100000 in
set_option synthInstance.maxSize 1000 in
/-- The address is rejected by the user and the call says so. The wallet says the same when it is asked to remove the
authorized key, without asking. -/
example :
    let t := (Dev.factory ⟨.small, List.replicate uploadCapacity 0⟩).trace walletApp walletRejects
    let t' := (Dev.factory ⟨.small, List.replicate uploadCapacity 0⟩).trace walletApp (ok [apdu 0xac 1 0 []])
    ((getAddress js true pathText 0).bind fun c => play t (.inl c)) = some ⟨0x6986, none⟩ ∧
    t.map (·.out.reply) = [none, none, none, none, some [0x69, 0x86]] ∧
    play t' (.inl deauthorizeBaking) = some ⟨0x6986, none⟩ := by
  decide +kernel

end Demo

end Tezos
