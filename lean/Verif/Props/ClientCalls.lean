import Verif.Props.Client
/-
C64-C66: the calls of the client library and the device: the byte put in front of consensus messages, the queries, and
the calls that manage the authorized key and the watermarks.
-/
set_option linter.unusedSimpArgs false
namespace Tezos
open Spec

/-! ### Calls of one APDU -/

/-- An exchange that ends with success: the device answered at once, or it opened a review that the user approved. -/
inductive Succeeds (cfg : Config) (ins p1 p2 : UInt8) (data d : Bytes) : List Moment → Prop where
  | atOnce {m : Moment} (hc : Carries m.ev ins p1 p2 data) (hrun : m.st.running = true)
      (hr : m.out.reply = some (d ++ [0x90, 0x00])) : Succeeds cfg ins p1 p2 data d [m]
  | later {m l : Moment} {b : List Moment} {v : View} (hc : Carries m.ev ins p1 p2 data) (ho : m.Opens cfg v)
      (hb : ∀ y ∈ b, y.Quiet) (ha : Approves l.st l.ev v) (hr : l.out.reply = some (d ++ [0x90, 0x00])) :
      Succeeds cfg ins p1 p2 data d (m :: (b ++ [l]))

theorem Exchange.succeeds {cfg : Config} {s : Dev} {es : List (Env × Event)} {past seg rest : List Moment}
    (h : s.trace cfg es = past ++ (seg ++ rest)) {ins p1 p2 : UInt8} {data d : Bytes}
    (he : Exchange ins p1 p2 data (d ++ [0x90, 0x00]) seg) : Succeeds cfg ins p1 p2 data d seg := by
  cases he with
  | @atOnce m hc hr =>
    obtain ⟨ea, eb, hes, _, _, _, hout, _⟩ := Dev.trace_split h
    refine .atOnce hc ?_ hr
    cases hb : m.st.running with
    | true => rfl
    | false => rw [hout, (Dev.step_stopped hb).1] at hr; cases hr
  | @later m l q hc hn hq hl hr =>
    have h' : s.trace cfg es = past ++ m :: (q ++ l :: rest) := by rw [h]; simp
    obtain ⟨tail, hev, -⟩ := hc.ex
    obtain ⟨v, hop, hqv, hlv⟩ := answered_later h' hev hn (fun y hy => (hq y hy).button) hl hr
    have h'' : s.trace cfg es = (past ++ m :: q) ++ l :: rest := by rw [h]; simp
    obtain ⟨ea, eb, hes, _, _, _, hout, _⟩ := Dev.trace_split h''
    have hr' := hr
    rw [hout] at hr'
    obtain ⟨w, hw, -, -⟩ := Dev.button_success hl hr' (statusOf_append d 0x90 0x00)
    have : w = v := by
      have := hw.view
      rw [hlv] at this
      exact (Option.some.inj this).symm
    subst this
    exact .later hc hop hq hw hr

/-- A call of one APDU that returns success. -/
theorem Talk.success {cfg : Config} {s : Dev} {es : List (Env × Event)} {past t rest : List Moment}
    (h : s.trace cfg es = past ++ (t ++ rest)) {α : Type} {ins p1 p2 : UInt8} {data : Bytes} {f : Bytes → Option α}
    {r : Response α} (ht : Talk ((transport ins p1 p2 data).process f) t r) (hr : r.returnCode = 0x9000) :
    ∃ q seg q' d, t = q ++ seg ++ q' ∧ (∀ m ∈ q, m.Quiet) ∧ (∀ m ∈ q', m.Quiet) ∧
      Succeeds cfg ins p1 p2 data d seg ∧ r.body = f (d ++ [0x90, 0x00]) := by
  rcases ht.of_process with ⟨_, rfl⟩ | ⟨q, seg, q', a, rfl, hq, hq', he, rfl⟩
  · cases hr
  · by_cases hl : a.length < 2
    · rw [if_pos hl] at hr; cases hr
    · rw [if_neg hl] at hr ⊢
      have hst : statusOf a = 0x9000 := by
        split at hr <;> exact hr
      obtain ⟨d, rfl⟩ := statusOf_success (by omega) hst
      refine ⟨q, seg, q', d, rfl, hq, hq', Exchange.succeeds (s := s) (es := es) (past := past ++ q) (rest := q' ++ rest) ?_ he, ?_⟩
      · rw [h]; simp
      · rw [if_pos (by simp [hst])]

/-- The command behind a review that was opened by an APDU. -/
theorem Carries.opens {cfg : Config} {m : Moment} {v : View} {ins p1 p2 : UInt8} {data : Bytes}
    (hc : Carries m.ev ins p1 p2 data) (ho : m.Opens cfg v) :
    ∃ c p u, command cfg.build ins = some c ∧ m.st.running = true ∧ Opens m.env m.st p1 p2 (some data) c v p u := by
  obtain ⟨buf, rx, c, p, u, hrec, hop, -⟩ := ho.ex
  obtain ⟨i, hi, hcmd⟩ := hrec.cmd
  have hi' : i = ins := by
    obtain ⟨tail, he, -⟩ := hc.ex
    have := hrec.ev.symm.trans he
    cases this
    exact (Option.some.inj hi).symm
  subst hi'
  obtain ⟨buf', hrec', h1, h2, h3⟩ := hc.received hrec.running hcmd
  have : buf = buf' := by
    have := hrec.ev.symm.trans hrec'.ev
    cases this
    rfl
  subst this
  rw [h1, h2, h3] at hop
  exact ⟨c, p, u, hcmd, hrec.running, hop⟩

theorem Carries.requests {m : Moment} {ins p1 p2 i q1 q2 : UInt8} {data : Bytes} (hc : Carries m.ev ins p1 p2 data)
    (h : Requests m i q1 q2) : i = ins ∧ q1 = p1 ∧ q2 = p2 := by
  obtain ⟨tail, he, -⟩ := hc.ex
  obtain ⟨buf, rx, he', h1, h2, h3⟩ := h.ex
  have := he'.symm.trans he
  cases this
  exact ⟨(Option.some.inj h1).symm, h2.symm, h3.symm⟩

theorem Carries.payload {m : Moment} {ins p1 p2 : UInt8} {data data' : Bytes} (hc : Carries m.ev ins p1 p2 data)
    (h : HasData m data') : data' = data := by
  obtain ⟨tail, he, hl⟩ := hc.ex
  obtain ⟨buf, rx, he', h1⟩ := h.ex
  have := he'.symm.trans he
  cases this
  have hn : (UInt8.ofNat data.length).toNat = data.length := by
    rw [UInt8.toNat_ofNat']
    omega
  unfold apduPayload at h1
  have h4 : ([0x80, ins, p1, p2, UInt8.ofNat data.length] ++ data ++ tail).getD 4 0 = UInt8.ofNat data.length := rfl
  simp only [h4, hn] at h1
  rw [if_pos (by simp; omega)] at h1
  simp [slice] at h1
  exact h1.symm

/-- The request behind an approval is the one of the call. -/
theorem same_opening {cfg : Config} {a q a' b : List Moment} {m m0 : Moment} {v : View} (h : a ++ m :: q = a' ++ m0 :: b)
    (hm : m.Opens cfg v) (hq : ∀ y ∈ q, y.Quiet) (hm0 : m0.ev.isButton = false) (hb : ∀ y ∈ b, ∀ w, ¬ y.Opens cfg w) :
    a' = a ∧ m0 = m ∧ b = q := by
  rcases List.append_eq_append_iff.mp h with ⟨c, rfl, h'⟩ | ⟨c, rfl, h'⟩
  · cases c with
    | nil =>
      simp only [List.nil_append, List.cons.injEq] at h'
      exact ⟨by simp, h'.1.symm, h'.2.symm⟩
    | cons x c =>
      simp only [List.cons_append, List.cons.injEq] at h'
      have := (hq m0 (by rw [h'.2]; simp)).button
      rw [hm0] at this
      cases this
  · cases c with
    | nil =>
      simp only [List.nil_append, List.cons.injEq] at h'
      exact ⟨by simp, h'.1, h'.2⟩
    | cons x c =>
      simp only [List.cons_append, List.cons.injEq] at h'
      exact absurd hm (hb m (by rw [h'.2]; simp) v)

theorem Requests.apdu {m : Moment} {ins p1 p2 : UInt8} (h : Requests m ins p1 p2) : m.ev.isButton = false := by
  obtain ⟨buf, rx, he, -⟩ := h.ex
  rw [he]
  rfl

/-! ### Results that are not answered at once with success -/

theorem Dev.show_reply (env : Env) (v : View) (s : Dev) (d : Bytes) :
    (s.show env v).deliver.2.reply ≠ some (d ++ [0x90, 0x00]) := by
  intro h
  cases ho : (s.show env v).out with
  | ok x => exact absurd ho (s.show_not_ok env v x)
  | shown e =>
    unfold Res.deliver at h
    rw [ho] at h
    dsimp only at h
    subst h
    have := congrArg statusOf (Dev.show_says ho)
    rw [statusOf_append] at this
    revert this
    decide
  | fault f =>
    unfold Res.deliver at h
    rw [ho] at h
    cases h
  | err e =>
    unfold Dev.show at ho
    dsimp only at ho
    split at ho <;> cases ho

theorem Dev.fail_reply {e : ApduError} (he : e ≠ .success) (s : Dev) (d : Bytes) :
    (s.fail e).deliver.2.reply ≠ some (d ++ [0x90, 0x00]) := Res.Bad.reply (Dev.fail_fails s e he).bad d

theorem Dev.withPath_reply {s : Dev} {n : Nat} {p2 : UInt8} {payload : Option Bytes} {f : PathAndCurve → Res} {d : Bytes}
    (h : ∀ k, (f k).deliver.2.reply ≠ some (d ++ [0x90, 0x00])) :
    (s.withPath n p2 payload f).deliver.2.reply ≠ some (d ++ [0x90, 0x00]) := by
  unfold Dev.withPath
  split
  · exact s.fail_reply (by decide) d
  · split
    · exact s.fail_reply (by decide) d
    · split
      · exact s.fail_reply (by decide) d
      · exact h _

theorem Dev.withKey_reply {s : Dev} {e e' : ApduError} (he : e ≠ .success) (he' : e' ≠ .success)
    {f : PathAndCurve → Res} {d : Bytes} (h : ∀ k, (f k).deliver.2.reply ≠ some (d ++ [0x90, 0x00])) :
    (s.withKey e e' f).deliver.2.reply ≠ some (d ++ [0x90, 0x00]) := by
  rcases s.withKey_cases e e' f he he' with hf | ⟨k, _, hk⟩
  · exact Res.Bad.reply hf.bad d
  · rw [hk]; exact h k

theorem Dev.authorize_reply (env : Env) (p1 p2 : UInt8) (payload : Option Bytes) (s : Dev) (d : Bytes) :
    (s.cmdAuthorize env p1 p2 payload).deliver.2.reply ≠ some (d ++ [0x90, 0x00]) := by
  unfold Dev.cmdAuthorize
  split
  · exact s.fail_reply (by decide) d
  · refine Dev.withPath_reply fun k => ?_
    split
    · exact s.fail_reply (by decide) d
    · exact s.show_reply env _ d

theorem Dev.deauthorize_reply (env : Env) (p1 : UInt8) (s : Dev) (d : Bytes) :
    (s.cmdDeauthorize env p1).deliver.2.reply ≠ some (d ++ [0x90, 0x00]) := by
  unfold Dev.cmdDeauthorize
  split
  · exact s.fail_reply (by decide) d
  · refine Dev.withKey_reply (by decide) (by decide) fun k => ?_
    split
    · exact s.fail_reply (by decide) d
    · exact s.show_reply env _ d

theorem Dev.queryAuth_reply (env : Env) (wc : Bool) (p1 : UInt8) (hp : 1 ≤ p1) (s : Dev) (d : Bytes) :
    (s.cmdQueryAuth env wc p1).deliver.2.reply ≠ some (d ++ [0x90, 0x00]) := by
  unfold Dev.cmdQueryAuth
  refine Dev.withKey_reply (by decide) (by decide) fun k => ?_
  split
  · exact s.fail_reply (by decide) d
  · rw [if_pos hp]
    exact s.show_reply env _ d

theorem Dev.setup_reply (env : Env) (p2 : UInt8) (payload : Option Bytes) (s : Dev) (d : Bytes) :
    (s.cmdSetup env p2 payload).deliver.2.reply ≠ some (d ++ [0x90, 0x00]) := by
  unfold Dev.cmdSetup
  split
  · exact s.fail_reply (by decide) d
  · split
    · exact s.fail_reply (by decide) d
    · dsimp only
      split
      · exact s.fail_reply (by decide) d
      · split
        · exact s.fail_reply (by decide) d
        · split
          · exact s.fail_reply (by decide) d
          · split
            · exact s.fail_reply (by decide) d
            · exact s.show_reply env _ d

theorem Dev.addr_reply (env : Env) (p2 : UInt8) (payload : Option Bytes) (s : Dev) (d : Bytes) :
    (s.cmdAddr env true p2 payload).deliver.2.reply ≠ some (d ++ [0x90, 0x00]) := by
  unfold Dev.cmdAddr
  refine Dev.withPath_reply fun k => ?_
  split
  · exact s.fail_reply (by decide) d
  · split
    · exact s.fail_reply (by decide) d
    · rw [if_pos rfl]
      exact s.show_reply env _ d

/-- An unknown command is not answered with success. -/
theorem Carries.known {cfg : Config} {env : Env} {s : Dev} {ev : Event} {ins p1 p2 : UInt8} {data d : Bytes}
    (hc : Carries ev ins p1 p2 data) (hrun : s.running = true)
    (hr : (s.step cfg env ev).2.reply = some (d ++ [0x90, 0x00])) : ∃ c, command cfg.build ins = some c := by
  cases hk : command cfg.build ins with
  | some c => exact ⟨c, rfl⟩
  | none =>
    exfalso
    obtain ⟨tail, rfl, hl⟩ := hc.ex
    have hd : s.dispatch cfg env ([0x80, ins, p1, p2, UInt8.ofNat data.length] ++ data ++ tail) (5 + data.length) =
        s.fail .commandNotAllowed := by
      unfold Dev.dispatch
      rw [if_neg (by simp; omega), if_neg (by simp)]
      have : ([0x80, ins, p1, p2, UInt8.ofNat data.length] ++ data ++ tail).getD 1 0 = ins := rfl
      rw [this, hk]
    simp only [Dev.step, hrun, if_true, hd] at hr
    exact s.fail_reply (by decide) d hr

/-! ### The byte in front of consensus messages -/

/-- C64: a block or endorsement that has the form of the protocol with its byte in front is sent with this byte when it
is given to the client without it. -/
theorem C64_baker_byte (js : Js) (path : Bytes) (curve : UInt8) (b : UInt8) (message : Bytes) (it : Item)
    (h : consensusItem (b :: message) = some it) :
    ∃ call, signBaker js path curve message (if it.rank = 0 then .blocklevel else .endorsement) = some call ∧
      SigningRequest js path curve message b call := by
  have cons : ∀ n : Nat, ((b :: message)[n + 1]? : Option UInt8) = message[n]? := fun n => rfl
  simp only [consensusItem, List.getElem?_cons_zero] at h
  split at h
  · rename_i hb
    split at h
    · rename_i hc
      cases h
      have h90 := hc.2.2.2
      rw [cons 90] at h90
      have hs : signBaker js path curve message .blocklevel =
          some (SignCall.sign js ⟨0xaf, false, true, curve⟩ path (0x01 :: message)) := by
        rcases h90 with h90 | h90 <;> simp [signBaker, BakerMessage.magic, h90]
      exact ⟨_, hs, .block (.inl ⟨h90, hb⟩) hs⟩
    · cases h
  split at h
  · rename_i hb
    split at h
    · rename_i hc
      cases h
      have h90 := hc.2.2.2
      rw [cons 90] at h90
      have hs : signBaker js path curve message .blocklevel =
          some (SignCall.sign js ⟨0xaf, false, true, curve⟩ path (0x11 :: message)) := by
        simp [signBaker, BakerMessage.magic, h90]
      exact ⟨_, hs, .block (.inr ⟨h90, hb⟩) hs⟩
    · cases h
  split at h
  · rename_i hb
    split at h
    · rename_i hc
      cases h
      have h36 := hc.2
      rw [cons 36] at h36
      have hs : signBaker js path curve message .endorsement =
          some (SignCall.sign js ⟨0xaf, false, true, curve⟩ path (0x02 :: message)) := by
        simp [signBaker, BakerMessage.magic, h36]
      exact ⟨_, hs, .endorsement (.inr (.inr ⟨by rw [h36]; decide, by rw [h36]; decide, hb⟩)) hs⟩
    · cases h
  split at h
  · rename_i hb
    split at h
    · rename_i hc
      cases h
      have h36 := hc.2
      rw [cons 36] at h36
      have hs : signBaker js path curve message .endorsement =
          some (SignCall.sign js ⟨0xaf, false, true, curve⟩ path (0x12 :: message)) := by
        simp [signBaker, BakerMessage.magic, h36]
      exact ⟨_, hs, .endorsement (.inl ⟨h36, hb⟩) hs⟩
    · cases h
  split at h
  · rename_i hb
    split at h
    · rename_i hc
      cases h
      have h36 := hc.2
      rw [cons 36] at h36
      have hs : signBaker js path curve message .endorsement =
          some (SignCall.sign js ⟨0xaf, false, true, curve⟩ path (0x13 :: message)) := by
        simp [signBaker, BakerMessage.magic, h36]
      exact ⟨_, hs, .endorsement (.inr (.inl ⟨h36, hb⟩)) hs⟩
    · cases h
  cases h

/-- The byte of a message given as a block or an endorsement. -/
theorem BakerMessage.magic_consensus {kind : BakerMessage} (hk : kind ≠ .delegation) {message : Bytes} {b : UInt8}
    (h : kind.magic message = some b) :
    (kind = .blocklevel ∧ (b = 0x01 ∨ b = 0x11)) ∨ (kind = .endorsement ∧ (b = 0x02 ∨ b = 0x12 ∨ b = 0x13)) := by
  cases kind with
  | delegation => exact absurd rfl hk
  | blocklevel =>
    simp only [BakerMessage.magic] at h
    split at h <;> first | (cases h; done) | (cases h; exact .inl ⟨rfl, by simp⟩)
  | endorsement =>
    simp only [BakerMessage.magic] at h
    split at h <;> (cases h; exact .inr ⟨rfl, by simp⟩)

/-- C64: a message given to `signBaker` as a block or as an endorsement is signed only if, with the byte that the
library puts in front, it is one. -/
theorem C64_kind (cfg : Config) (new : NewDevice) (hu : new.upload.length = uploadCapacity) (es : List (Env × Event))
    (hg : ∀ e ∈ es, Good e.1 e.2) (hcr : ∀ e ∈ es, e.1.cr.Sized) (past t rest : List Moment)
    (h : (Dev.factory new).trace cfg es = past ++ (t ++ rest)) (js : Js) (hjs : js.ReadsDecimal) (path : Bytes)
    (cs : List Component) (hcs : IsPathText path cs) (curve : UInt8) (message : Bytes) (kind : BakerMessage)
    (hk : kind ≠ .delegation) (call : Client SignResponse) (hcall : signBaker js path curve message kind = some call)
    (r : SignResponse) (ht : Talk call t r) (hr : r.returnCode = 0x9000) :
    ∃ b x it, sigsOf t = [x] ∧ x.msg = b :: message ∧ consensusItem (b :: message) = some it ∧
      (it.rank = 0 ↔ kind = .blocklevel) := by
  have hb : ∃ b, kind.magic message = some b ∧ SigningRequest js path curve message b call := by
    have hcall' := hcall
    simp only [signBaker, Option.map_eq_some_iff] at hcall'
    obtain ⟨b, hb, rfl⟩ := hcall'
    refine ⟨b, hb, ?_⟩
    cases kind with
    | delegation => exact absurd rfl hk
    | blocklevel =>
      refine .block ?_ hcall
      simp only [BakerMessage.magic, Nat.reduceAdd] at hb
      split at hb <;> first | (cases hb; done) | (rename_i e; cases hb; simp [e])
    | endorsement =>
      refine .endorsement ?_ hcall
      simp only [BakerMessage.magic, Nat.reduceAdd] at hb
      split at hb
      · rename_i e; cases hb; simp [e]
      · rename_i e; cases hb; simp [e]
      · rename_i e1 e2; cases hb; exact .inr (.inr ⟨e1, e2, rfl⟩)
  obtain ⟨b, hb, hreq⟩ := hb
  rcases C62_signing cfg new hu es hg hcr past t rest h js hjs path cs hcs curve message b call hreq r ht with
    ⟨h1, -⟩ | ⟨-, x, hsig, hmsg, -⟩
  · exact absurd hr h1
  · have hmag : isConsensusMagic x.msg = true := by
      rw [hmsg]
      rcases BakerMessage.magic_consensus hk hb with ⟨_, rfl | rfl⟩ | ⟨_, rfl | rfl | rfl⟩ <;> rfl
    have hmem : x ∈ sigsOf t := by rw [hsig]; simp
    obtain ⟨m, hm, hmx⟩ := List.mem_filterMap.mp hmem
    obtain ⟨ta, tb, rfl⟩ := List.append_of_mem hm
    have h' : (Dev.factory new).trace cfg es = (past ++ ta) ++ m :: (tb ++ rest) := by rw [h]; simp
    obtain ⟨ea, eb, rfl, _, _, hst, hout, _⟩ := Dev.trace_split h'
    have hok : m.st.Ok := by rw [hst]; exact (Dev.Ok.factory new).run
    rw [hout] at hmx
    obtain ⟨it, hit, -⟩ := consensus_level cfg m.st m.env m.ev x hok hmx hmag
    rw [hmsg] at hit
    refine ⟨b, x, it, hsig, hmsg, hit, ?_⟩
    rcases BakerMessage.magic_consensus hk hb with ⟨rfl, hb'⟩ | ⟨rfl, hb'⟩
    · refine ⟨fun _ => rfl, fun _ => ?_⟩
      rcases hb' with rfl | rfl <;> simp only [consensusItem, List.getElem?_cons_zero] at hit <;>
        (split at hit <;> try contradiction) <;> (split at hit <;> try contradiction) <;>
        first | (cases hit; rfl) | skip
      all_goals (split at hit <;> first | contradiction | (cases hit; rfl))
    · refine ⟨fun h0 => ?_, fun h0 => by cases h0⟩
      exfalso
      rcases hb' with rfl | rfl | rfl <;>
        simp [consensusItem] at hit <;> obtain ⟨-, rfl⟩ := hit <;> cases h0

/-! ### Queries -/

/-- What `getVersion` should return: the version of the app, and its target, which JavaScript reads as a signed
number. -/
def versionBody (cfg : Config) : VersionBody where
  testMode := false
  major := cfg.major
  minor := cfg.minor
  patch := cfg.patch
  deviceLocked := false
  targetId := if cfg.target.toNat < 2 ^ 31 then (cfg.target.toNat : Int) else (cfg.target.toNat : Int) - 2 ^ 32

/-- A call whose command is always answered at once with the same data returns it. -/
theorem Talk.always {cfg : Config} {s : Dev} {es : List (Env × Event)} {past t rest : List Moment}
    (h : s.trace cfg es = past ++ (t ++ rest)) {α : Type} {ins p1 p2 : UInt8} {data d : Bytes} {f : Bytes → Option α}
    {r : Response α} (hl : data.length < 256) (ht : Talk ((transport ins p1 p2 data).process f) t r)
    (ha : ∀ (s : Dev) (env : Env) (ev : Event), s.running = true → Carries ev ins p1 p2 data →
      (s.step cfg env ev).2.reply = some (d ++ [0x90, 0x00])) : r = ⟨0x9000, f (d ++ [0x90, 0x00])⟩ := by
  rcases ht.of_process with ⟨⟨hl', -⟩, -⟩ | ⟨q, seg, q', a, rfl, hq, hq', he, rfl⟩
  · omega
  · have hlen : 2 ≤ (d ++ [0x90, 0x00] : Bytes).length := by simp
    have key : a = d ++ [0x90, 0x00] := by
      cases he with
      | @atOnce m hc hr =>
        have h' : s.trace cfg es = (past ++ q) ++ m :: (q' ++ rest) := by rw [h]; simp
        obtain ⟨ea, eb, hes, _, _, _, hout, _⟩ := Dev.trace_split h'
        have hrun : m.st.running = true := by
          cases hb : m.st.running with
          | true => rfl
          | false => rw [hout, (Dev.step_stopped hb).1] at hr; cases hr
        rw [hout, ha _ _ _ hrun hc] at hr
        exact (Option.some.inj hr).symm
      | @later m l b hc hn hb hlb hr =>
        exfalso
        have h' : s.trace cfg es = (past ++ q) ++ m :: (b ++ l :: (q' ++ rest)) := by rw [h]; simp
        obtain ⟨tail, hev, -⟩ := hc.ex
        obtain ⟨v, hop, -, -⟩ := answered_later h' hev hn (fun y hy => (hb y hy).button) hlb hr
        obtain ⟨c, _, _, hcmd, hrun, -⟩ := hc.opens hop
        have := hop.quiet.1
        rw [ha _ _ _ hrun hc] at this
        cases this
    subst key
    rw [if_neg (by omega), if_pos (by rw [statusOf_append]; decide), statusOf_append]
    rfl

theorem dropStatus_append (d : Bytes) (a b : UInt8) : dropStatus (d ++ [a, b]) = d := by
  unfold dropStatus
  rw [show (d ++ [a, b]).length - 2 = d.length by simp, List.take_left]

/-- C65, versions: the library returns the version, kind, target and commit of the app. -/
theorem C65_version (cfg : Config) (s : Dev) (es : List (Env × Event)) (past t rest : List Moment)
    (h : s.trace cfg es = past ++ (t ++ rest)) :
    (∀ r, Talk getVersion t r → r = ⟨0x9000, some (versionBody cfg)⟩) ∧
    (∀ r, Talk legacyGetVersion t r → r = ⟨0x9000, some (cfg.build = .baking, cfg.major, cfg.minor, cfg.patch)⟩) ∧
    (∀ r, Talk legacyGetGit t r → r = ⟨0x9000, some (cfg.commit ++ [0])⟩) := by
  refine ⟨fun r ht => ?_, fun r ht => ?_, fun r ht => ?_⟩
  · have := Talk.always h (by decide) ht (d := [0, cfg.major, cfg.minor, cfg.patch, 0] ++ be32 cfg.target)
      fun s env ev hrun hc => by rw [(C59_version cfg env s hrun ev 0 0 []).2.1 hc]
    rw [this]
    congr 2
    have hb : ∀ x : UInt8, x.toNat < 256 := fun x => x.toNat_lt
    simp only [versionBody, be32, beEnc]
    congr 1
    have h0 : cfg.target.toNat < 2 ^ 32 := cfg.target.toNat_lt
    simp only [be32, beEnc, List.length_append, List.length_cons, List.length_nil, jsTarget]
    simp [List.getD, jsTarget, UInt8.toNat_ofNat']
    split <;> split <;> omega
  · have := Talk.always h (by decide) ht
      (d := [match cfg.build with | .baking => 1 | .wallet => 0, cfg.major, cfg.minor, cfg.patch])
      fun s env ev hrun hc => by rw [(C59_version cfg env s hrun ev 0 0 []).1 hc]; cases cfg.build <;> rfl
    rw [this]
    cases cfg.build <;> rfl
  · have := Talk.always h (by decide) ht (d := cfg.commit ++ [0])
      fun s env ev hrun hc => by rw [(C59_version cfg env s hrun ev 0 0 []).2.2 hc]
    rw [this, dropStatus_append]

/-- The path that a call sends. -/
theorem sent_path {js : Js} (hjs : js.ReadsDecimal) {path p : Bytes} {cs : List Component} (hcs : IsPathText path cs)
    (hp : serializePath js path = some p) :
    p = UInt8.ofNat (cs.map Component.bits).length :: (cs.map Component.bits).flatMap be32 := by
  rw [C63_path_text js hjs path cs hcs] at hp
  split at hp
  · rw [List.length_map]; exact (Option.some.inj hp).symm
  · cases hp

/-- The key that a call names. -/
theorem sent_key {js : Js} (hjs : js.ReadsDecimal) {path p : Bytes} {cs : List Component} (hcs : IsPathText path cs)
    (hp : serializePath js path = some p) {k : PathAndCurve} (h : p = UInt8.ofNat k.path.length :: k.path.flatMap be32) :
    k.path = cs.map Component.bits := by
  rw [sent_path hjs hcs hp] at h
  exact (flatMap_be32_inj (List.cons.inj h).2).symm

theorem publicKey_short {cr : Crypto} (hs : cr.Sized) {c : Curve} {p : Path} {key : Bytes}
    (h : cr.publicKey c p = some key) : key.length < 256 := by
  have := hs.publicKey h
  cases c <;> simp only at this <;> omega

theorem readAddress_reply {key t : Bytes} (h : key.length < 256) :
    readAddress (UInt8.ofNat key.length :: key ++ t ++ [0x90, 0x00]) = (key, t) := by
  have hn : (UInt8.ofNat key.length).toNat = key.length := by rw [UInt8.toNat_ofNat']; omega
  unfold readAddress
  simp only [List.cons_append, List.getD_cons_zero, hn]
  have h1 : slice (UInt8.ofNat key.length :: (key ++ t ++ [0x90, 0x00])) 1 key.length = key := by
    simp [slice, List.append_assoc]
  have h2 : (UInt8.ofNat key.length :: (key ++ t ++ [0x90, 0x00])).drop (1 + key.length) = t ++ [0x90, 0x00] := by
    rw [Nat.add_comm, List.drop_succ_cons, List.append_assoc, List.drop_left]
  rw [h1, h2, dropStatus_append]

theorem mem_env {cfg : Config} {s : Dev} {es : List (Env × Event)} {t : List Moment} (h : s.trace cfg es = t) {m : Moment}
    (hm : m ∈ t) : (m.env, m.ev) ∈ es := by
  obtain ⟨a, b, rfl⟩ := List.append_of_mem hm
  obtain ⟨ea, eb, rfl, _⟩ := Dev.trace_split h
  simp

/-- C65, address: if `getAddressAndPubKey` returns success, the key and the address it returns are those of the given
curve and path. -/
theorem C65_address (cfg : Config) (s : Dev) (es : List (Env × Event)) (hcr : ∀ e ∈ es, e.1.cr.Sized)
    (past t rest : List Moment) (h : s.trace cfg es = past ++ (t ++ rest)) (js : Js) (hjs : js.ReadsDecimal)
    (path : Bytes) (cs : List Component) (hcs : IsPathText path cs) (curve : UInt8)
    (call : Client (Response (Bytes × Bytes))) (hcall : getAddress js false path curve = some call)
    (r : Response (Bytes × Bytes)) (ht : Talk call t r) (hr : r.returnCode = 0x9000) :
    ∃ m ∈ t, ∃ c key text, Curve.ofByte curve = some c ∧ m.env.cr.publicKey c (cs.map Component.bits) = some key ∧
      IsAddressOf m.env.cr c key text ∧ r.body = some (key, text) := by
  simp only [getAddress, Option.map_eq_some_iff] at hcall
  obtain ⟨p, hp, rfl⟩ := hcall
  obtain ⟨q, seg, q', d, rfl, -, -, hsu, hbody⟩ := Talk.success h ht hr
  cases hsu with
  | @atOnce m hc hrun hrep =>
    have h' : s.trace cfg es = (past ++ q) ++ m :: (q' ++ rest) := by rw [h]; simp
    obtain ⟨ea, eb, rfl, _, _, _, hout, _⟩ := Dev.trace_split h'
    have hsz : m.env.cr.Sized := hcr (m.env, m.ev) (by simp)
    rw [hout] at hrep
    obtain ⟨k, hk, key, text, hkey, haddr, rfl⟩ := ((C59_address cfg m.env hsz m.st hrun m.ev curve p hc).data d).mp hrep
    have hpath := sent_key hjs hcs hp hk.path
    refine ⟨m, by simp, k.curve, key, text, (hk.read (by decide)).1, ?_, haddr, ?_⟩
    · rw [← hpath]; exact hkey
    · rw [hbody, readAddress_reply (publicKey_short hsz hkey)]
  | @later m l b v hc ho hb ha hrep =>
    exfalso
    obtain ⟨c, _, _, hcmd, hrun, hop⟩ := hc.opens ho
    have : c = .getAddr := by
      revert hcmd
      cases cfg.build <;> exact fun e => (Option.some.inj e).symm
    subst this
    cases hop with
    | addr hcmd' hcv hpl hrd hk haddr =>
      rcases hcmd' with h0 | ⟨_, h0⟩
      · cases h0
      · exact absurd h0 (by decide)

/-- The user was asked by the device during the call: the review consisted of these items, was approved at `l`, and,
with expert mode off or on the larger display, the user read them all. -/
structure Confirmed (cfg : Config) (cr : Crypto) (t : List Moment) (l : Moment) (items : List (String × Shown)) :
    Prop where
  ex : ∃ q m0 b q' v, t = q ++ m0 :: (b ++ l :: q') ∧ (∀ y ∈ b, y.Quiet) ∧ Approves l.st l.ev v ∧
    (∀ y ∈ b ++ [l], ∃ w, y.st.viewer y.env = some w ∧ Presents cr w items) ∧
    ((∀ y ∈ b, y.st.zui.Plain) →
      ∀ e ∈ items, UserRead cr.hashes ((b ++ [l]).map (·.st.zui.screen)) e)

theorem Reviewed.confirmed {cfg : Config} {cr : Crypto} {q b q' : List Moment} {m0 l : Moment}
    {items : List (String × Shown)} {v : View} (h : Reviewed cfg cr b l items) (hb : ∀ y ∈ b, y.Quiet)
    (ha : Approves l.st l.ev v) : Confirmed cfg cr (q ++ m0 :: (b ++ [l]) ++ q') l items :=
  ⟨q, m0, b, q', v, by simp, hb, ha, h.presents,
    fun he => h.read fun y hy => ⟨Event.packet_button (hb y hy).button, he y hy⟩⟩

/-- C65, address with confirmation: if `showAddressAndPubKey` returns success, the user approved the display of the
address, and the key and the address returned are those of the given curve and path and of the account shown. -/
theorem C65_shown_address (cfg : Config) (new : NewDevice) (es : List (Env × Event)) (cr : Crypto) (hs : cr.Sized)
    (hcr : ∀ e ∈ es, e.1.cr = cr) (past t rest : List Moment)
    (h : (Dev.factory new).trace cfg es = past ++ (t ++ rest)) (js : Js) (hjs : js.ReadsDecimal)
    (path : Bytes) (cs : List Component) (hcs : IsPathText path cs) (curve : UInt8)
    (call : Client (Response (Bytes × Bytes))) (hcall : getAddress js true path curve = some call)
    (r : Response (Bytes × Bytes)) (ht : Talk call t r) (hr : r.returnCode = 0x9000) :
    ∃ l c key acc text, Curve.ofByte curve = some c ∧ IsAccount cr ⟨c, cs.map Component.bits⟩ key acc ∧
      Confirmed cfg cr t l [("Address", .account acc)] ∧ IsAddressOf cr c key text ∧ r.body = some (key, text) := by
  simp only [getAddress, Option.map_eq_some_iff] at hcall
  obtain ⟨p, hp, rfl⟩ := hcall
  obtain ⟨q, seg, q', d, rfl, -, -, hsu, hbody⟩ := Talk.success h ht hr
  have hcmd : command cfg.build 0x11 = some .getAddr := by cases cfg.build <;> rfl
  cases hsu with
  | @atOnce m hc hrun hrep =>
    exfalso
    have h' : (Dev.factory new).trace cfg es = (past ++ q) ++ m :: (q' ++ rest) := by rw [h]; simp
    obtain ⟨ea, eb, rfl, _, _, _, hout, _⟩ := Dev.trace_split h'
    rw [hout, hc.step hrun hcmd] at hrep
    exact m.st.addr_reply m.env curve (some p) d hrep
  | @later m l b v hc ho hb ha hrep =>
    have h' : (Dev.factory new).trace cfg es = ((past ++ q) ++ m :: b) ++ l :: (q' ++ rest) := by rw [h]; simp
    obtain ⟨c, _, _, hcmd', hrun, hop⟩ := hc.opens ho
    rw [hcmd] at hcmd'
    cases hcmd'
    cases hop with
    | addr hcmd' hcv hpl hrd hk haddr =>
      rename_i k p' key a
      cases hpl
      obtain ⟨before, m0, b', heq, ho', hb', hc0, hcm, hrev⟩ := reviewed h' hs hcr ha
      obtain ⟨rfl, rfl, rfl⟩ := same_opening heq ho hb ho'.apdu fun y hy => (hb' y hy).2
      rw [hc0] at hk haddr
      have hpath := sent_key hjs hcs hp (Path.read_ok.mp hrd).2.2.2
      obtain ⟨⟨hash, hh, hchk⟩, hok⟩ := Addr.ofKey_spec haddr
      have hacc : IsAccount cr ⟨k.curve, cs.map Component.bits⟩ key ⟨curveKind k.curve, hash⟩ := by
        rw [← hpath]; exact ⟨hk, rfl, hh⟩
      have hren : ∀ title, Renders cr (do return ⟨ascii title, ← a.base58⟩)
          (title, .account ⟨curveKind k.curve, hash⟩) := by
        obtain ⟨key', acc, hacc', hren⟩ := newAddr_account (k := k) hs (a := a) (by
          unfold newAddr; simp only [Option.bind_eq_bind, hk, Option.bind_some]; exact haddr)
        have e1 : key' = key := Option.some.inj (hacc'.derived.symm.trans hk)
        subst e1
        have e2 : acc = ⟨curveKind k.curve, hash⟩ := by
          have := hacc'.hash.symm.trans hh
          have h3 := hacc'.kind
          cases acc
          cases h3
          cases this
          rfl
        rw [← e2]
        exact hren
      have hR := hrev [("Address", .account ⟨curveKind k.curve, hash⟩)] (by simp)
        (by
          simp only [List.forall_mem_cons]
          exact ⟨plain_text (by decide +kernel) (fun _ h => by cases h), fun _ h => by cases h⟩)
        (fun mem => ⟨rfl, fun n e he => by
          match n, he with
          | 0, he => cases he; exact hren "Address"⟩)
      have hrep' := hrep
      rw [ha.reply h'] at hrep'
      simp only [View.accept, if_true, hok hs] at hrep'
      have hd := Dev.ok_reply hrep'
      refine ⟨l, k.curve, key, _, base58 a.bytes, hcv, hacc, hR.confirmed hb ha, ⟨hash, hh, hchk⟩, ?_⟩
      rw [hbody, hd]
      simp only [keyReply]
      rw [readAddress_reply (publicKey_short hs hk)]

theorem storedKey_short {s : Dev} {k : PathAndCurve} (h : s.storedKey = some k) : k.path.length < 256 := by
  unfold Dev.storedKey at h
  split at h
  · rename_i b _
    split at h
    · rename_i k' hk
      subst h
      have := (PathAndCurve.tryFromBytes_some hk).2
      omega
    · cases h
  · cases h

theorem queryAuth_body {k : PathAndCurve} (hl : k.path.length < 256) :
    (fun r : Bytes => some (r.getD 0 0, slice r 2 (4 * (r.getD 1 0).toNat)))
      ((if true then [curveCode k.curve] else []) ++ (UInt8.ofNat k.path.length :: k.path.flatMap be32) ++
        [0x90, 0x00]) = some (curveCode k.curve, k.path.flatMap be32) := by
  have hn : (UInt8.ofNat k.path.length).toNat = k.path.length := by rw [UInt8.toNat_ofNat']; omega
  simp only [if_true, List.cons_append, List.nil_append, List.getD_cons_zero, List.getD_cons_succ, hn]
  congr 2
  simp only [slice, List.drop_succ_cons, List.drop_zero]
  rw [show 4 * k.path.length = (k.path.flatMap be32).length by rw [flatMap_be32_length], List.take_left]

/-- C65, authorized key: if `queryAuthKeyWithCurve` without confirmation returns success, it returns the curve and path
of the key that is authorized. -/
theorem C65_authorized_key (cfg : Config) (s : Dev) (es : List (Env × Event)) (past t rest : List Moment)
    (h : s.trace cfg es = past ++ (t ++ rest)) (r : Response (UInt8 × Bytes)) (ht : Talk (queryAuthKey false) t r)
    (hr : r.returnCode = 0x9000) :
    cfg.build = .baking ∧ ∃ m ∈ t, ∃ k, m.st.storedKey = some k ∧
      r.body = some (curveCode k.curve, k.path.flatMap be32) := by
  obtain ⟨q, seg, q', d, rfl, -, -, hsu, hbody⟩ := Talk.success h ht hr
  have hcmd : ∀ c, command cfg.build 0xad = some c → cfg.build = .baking ∧ c = .queryAuth true := by
    intro c hc
    cases hb : cfg.build with
    | wallet => rw [hb] at hc; cases hc
    | baking => rw [hb] at hc; cases hc; exact ⟨rfl, rfl⟩
  cases hsu with
  | @atOnce m hc hrun hrep =>
    have h' : s.trace cfg es = (past ++ q) ++ m :: (q' ++ rest) := by rw [h]; simp
    obtain ⟨ea, eb, rfl, _, _, _, hout, _⟩ := Dev.trace_split h'
    rw [hout] at hrep
    obtain ⟨c, hk⟩ := hc.known hrun hrep
    obtain ⟨hb, -⟩ := hcmd c hk
    obtain ⟨k, hkey, -, rfl⟩ := ((C59_authorized_key cfg hb m.env m.st hrun m.ev true 0xad 0 (by decide) [] hc).data d).mp
      hrep
    refine ⟨hb, m, by simp, k, hkey, ?_⟩
    rw [hbody]
    exact queryAuth_body (storedKey_short hkey)
  | @later m l b v hc ho hb ha hrep =>
    exfalso
    obtain ⟨c, _, _, hk, hrun, hop⟩ := hc.opens ho
    obtain ⟨-, rfl⟩ := hcmd c hk
    cases hop with
    | query h1 => exact absurd h1 (by decide)
    | addr h1 => rcases h1 with h1 | ⟨h1, _⟩ <;> cases h1

/-- C65, main watermark: if `legacyGetHighWatermark` returns success, it returns the level the main watermark was last
set to, or 0xffffffff if it was never set. -/
theorem C65_main_watermark (cfg : Config) (new : NewDevice) (es : List (Env × Event))
    (hes : ∀ e ∈ es, e.1.mainF.Sound) (hlen : es.length < 2 ^ 64) (past t rest : List Moment)
    (h : (Dev.factory new).trace cfg es = past ++ (t ++ rest)) (r : Response UInt32)
    (ht : Talk legacyGetHighWatermark t r) (hr : r.returnCode = 0x9000) :
    ∃ q m q', t = q ++ m :: q' ∧ ((∃ level, LastSet cfg (past ++ q) .main level ∧ r.body = some level) ∨
      (NeverSet cfg (past ++ q) .main ∧ r.body = some 0xffffffff)) := by
  obtain ⟨q, seg, q', d, rfl, -, -, hsu, hbody⟩ := Talk.success h ht hr
  have hcmd : ∀ c, command cfg.build 0x08 = some c → c = .queryMain := by
    intro c hc
    cases hb : cfg.build with
    | wallet => rw [hb] at hc; cases hc
    | baking => rw [hb] at hc; cases hc; rfl
  cases hsu with
  | @atOnce m hc hrun hrep =>
    have h' : (Dev.factory new).trace cfg es = (past ++ q) ++ m :: (q' ++ rest) := by rw [h]; simp
    have hout : m.out = (m.st.step cfg m.env m.ev).2 := by
      obtain ⟨ea, eb, rfl, _, _, _, hout, _⟩ := Dev.trace_split h'
      exact hout
    have hrep' := hrep
    rw [hout] at hrep'
    obtain ⟨c, hk⟩ := hc.known hrun hrep'
    have := hcmd c hk
    subst this
    obtain ⟨buf, hrec, -⟩ := hc.received hrun hk
    refine ⟨q, m, q', by simp, ?_⟩
    rcases C47_main_query cfg new es hes hlen (past ++ q) (q' ++ rest) m h' ⟨buf, _, hrec⟩ with
      ⟨level, hls, hrp⟩ | ⟨hns, hrp⟩ | ⟨hns, -⟩
    · refine .inl ⟨level, hls, ?_⟩
      rw [hrp] at hrep
      rw [hbody, ← Option.some.inj hrep]
      have h1 : 6 ≤ (be32 level ++ [0x90, 0x00]).length := by simp [be32]
      have h2 : (be32 level ++ [0x90, 0x00]).take 4 = be32 level := by
        rw [show 4 = (be32 level).length by simp [be32], List.take_left]
      rw [if_pos h1, h2, u32OfBe_be32]
    · refine .inr ⟨hns, ?_⟩
      rw [hrp] at hrep
      rw [hbody, ← Option.some.inj hrep]
      rfl
    · exact absurd ⟨d, hrep⟩ hns
  | @later m l b v hc ho hb ha hrep =>
    exfalso
    obtain ⟨c, _, _, hk, hrun, hop⟩ := hc.opens ho
    have := hcmd c hk
    subst this
    cases hop with
    | addr h1 => rcases h1 with h1 | ⟨h1, _⟩ <;> cases h1

/-- C65, all watermarks: if `legacyGetAllWatermark` returns success, it returns the levels and the chain id last set, or
the defaults if one of them was never set. -/
theorem C65_all_watermarks (cfg : Config) (new : NewDevice) (es : List (Env × Event))
    (hes : ∀ e ∈ es, ∀ r, (e.1.markF r).Sound) (hlen : es.length < 2 ^ 64) (past t rest : List Moment)
    (h : (Dev.factory new).trace cfg es = past ++ (t ++ rest)) (r : Response (UInt32 × UInt32 × UInt32))
    (ht : Talk legacyGetAllWatermark t r) (hr : r.returnCode = 0x9000) :
    ∃ q m q', t = q ++ m :: q' ∧ ((∃ l1 l2 ch, LastSet cfg (past ++ q) .main l1 ∧ LastSet cfg (past ++ q) .test l2 ∧
        LastSet cfg (past ++ q) .chain ch ∧ r.body = some (l1, l2, ch)) ∨
      ((∃ x, NeverSet cfg (past ++ q) x) ∧ r.body = some (0xffffffff, 0xffffffff, 0x7a06a770))) := by
  obtain ⟨q, seg, q', d, rfl, -, -, hsu, hbody⟩ := Talk.success h ht hr
  have hcmd : ∀ c, command cfg.build 0x0b = some c → c = .queryAll := by
    intro c hc
    cases hb : cfg.build with
    | wallet => rw [hb] at hc; cases hc
    | baking => rw [hb] at hc; cases hc; rfl
  cases hsu with
  | @atOnce m hc hrun hrep =>
    have h' : (Dev.factory new).trace cfg es = (past ++ q) ++ m :: (q' ++ rest) := by rw [h]; simp
    have hout : m.out = (m.st.step cfg m.env m.ev).2 := by
      obtain ⟨ea, eb, rfl, _, _, _, hout, _⟩ := Dev.trace_split h'
      exact hout
    have hrep' := hrep
    rw [hout] at hrep'
    obtain ⟨c, hk⟩ := hc.known hrun hrep'
    have := hcmd c hk
    subst this
    obtain ⟨buf, hrec, -⟩ := hc.received hrun hk
    refine ⟨q, m, q', by simp, ?_⟩
    rcases C47_full_query_partial cfg new es hes hlen (past ++ q) (q' ++ rest) m h' ⟨buf, _, hrec⟩ with
      ⟨l1, l2, ch, h1, h2, h3, hrp⟩ | ⟨hns, hrp⟩ | ⟨hns, -⟩
    · refine .inl ⟨l1, l2, ch, h1, h2, h3, ?_⟩
      rw [hrp] at hrep
      rw [hbody, ← Option.some.inj hrep]
      have hl : ∀ x : UInt32, (be32 x).length = 4 := fun x => by simp [be32]
      have e0 : 14 ≤ (be32 l1 ++ be32 l2 ++ be32 ch ++ [0x90, 0x00]).length := by simp [hl]
      have e1 : slice (be32 l1 ++ be32 l2 ++ be32 ch ++ [0x90, 0x00]) 0 4 = be32 l1 := by
        simp [slice, List.append_assoc, List.take_append, hl, List.take_of_length_le]
      have e2 : slice (be32 l1 ++ be32 l2 ++ be32 ch ++ [0x90, 0x00]) 4 4 = be32 l2 := by
        simp [slice, List.append_assoc, List.take_append, List.drop_append, hl, List.take_of_length_le,
          List.drop_of_length_le]
      have e3 : slice (be32 l1 ++ be32 l2 ++ be32 ch ++ [0x90, 0x00]) 8 4 = be32 ch := by
        simp [slice, List.append_assoc, List.take_append, List.drop_append, hl, List.take_of_length_le,
          List.drop_of_length_le]
      rw [if_pos e0, e1, e2, e3, u32OfBe_be32, u32OfBe_be32, u32OfBe_be32]
    · refine .inr ⟨hns, ?_⟩
      rw [hrp] at hrep
      rw [hbody, ← Option.some.inj hrep]
      rfl
    · exact absurd ⟨d, hrep⟩ hns
  | @later m l b v hc ho hb ha hrep =>
    exfalso
    obtain ⟨c, _, _, hk, hrun, hop⟩ := hc.opens ho
    have := hcmd c hk
    subst this
    cases hop with
    | addr h1 => rcases h1 with h1 | ⟨h1, _⟩ <;> cases h1

/-! ### Managing calls -/

/-- The build and the command of an instruction of the baking build. -/
theorem baking_only {b : Build} {ins : UInt8} {c c' : Cmd} (hw : command .wallet ins = none)
    (hb : command .baking ins = some c) (h : command b ins = some c') : b = .baking ∧ c' = c := by
  cases b with
  | wallet => rw [hw] at h; cases h
  | baking => rw [hb] at h; cases h; exact ⟨rfl, rfl⟩

/-- C66, authorization: if `authorizeBaking` returns success, the user approved the review of this account, the public
key returned is the one of the given curve and path, and these are authorized, also after a restart. -/
theorem C66_authorize (cfg : Config) (new : NewDevice) (es : List (Env × Event)) (hes : ∀ e ∈ es, e.1.keyF.Detected)
    (hlen : es.length < 2 ^ 64) (cr : Crypto) (hs : cr.Sized) (hcr : ∀ e ∈ es, e.1.cr = cr) (past t rest : List Moment)
    (h : (Dev.factory new).trace cfg es = past ++ (t ++ rest)) (js : Js) (hjs : js.ReadsDecimal)
    (path : Bytes) (cs : List Component) (hcs : IsPathText path cs) (curve : UInt8)
    (call : Client (Response Bytes)) (hcall : authorizeBaking js path curve = some call)
    (r : Response Bytes) (ht : Talk call t r) (hr : r.returnCode = 0x9000) :
    ∃ l c key acc, Curve.ofByte curve = some c ∧ IsAccount cr ⟨c, cs.map Component.bits⟩ key acc ∧
      Confirmed cfg cr t l (manageReview "Authorize Baking" acc) ∧ r.body = some key ∧
      ∀ s, s = l.next cfg ∨ s = (l.next cfg).relaunch → s.storedKey = some ⟨c, cs.map Component.bits⟩ := by
  simp only [authorizeBaking, Option.map_eq_some_iff] at hcall
  obtain ⟨p, hp, rfl⟩ := hcall
  obtain ⟨q, seg, q', d, rfl, -, -, hsu, hbody⟩ := Talk.success h ht hr
  cases hsu with
  | @atOnce m hc hrun hrep =>
    exfalso
    have h' : (Dev.factory new).trace cfg es = (past ++ q) ++ m :: (q' ++ rest) := by rw [h]; simp
    obtain ⟨ea, eb, rfl, _, _, _, hout, _⟩ := Dev.trace_split h'
    rw [hout] at hrep
    obtain ⟨c, hk⟩ := hc.known hrun hrep
    obtain ⟨-, rfl⟩ := baking_only (ins := 0xa1) rfl rfl hk
    rw [hc.step hrun hk] at hrep
    exact m.st.authorize_reply m.env 1 curve (some p) d hrep
  | @later m l b v hc ho hb ha hrep =>
    have h' : (Dev.factory new).trace cfg es = ((past ++ q) ++ m :: b) ++ l :: (q' ++ rest) := by rw [h]; simp
    obtain ⟨c, _, _, hk, hrun, hop⟩ := hc.opens ho
    obtain ⟨-, rfl⟩ := baking_only (ins := 0xa1) rfl rfl hk
    cases hop with
    | addr h1 => rcases h1 with h1 | ⟨h1, _⟩ <;> cases h1
    | authorize h1 hcv hpl hrd haddr =>
      rename_i k p' a
      cases hpl
      obtain ⟨before, m0, b', ins, p1, key, acc, heq, hb', -, -, -, hreq, -, hacc, hrev, hsucc⟩ :=
        C58_authorize cfg new es hes hlen cr hs hcr _ _ l h' k a ha
      obtain ⟨rfl, rfl, rfl⟩ := same_opening heq ho hb hreq.apdu hb'
      have hpath := sent_key hjs hcs hp (Path.read_ok.mp hrd).2.2.2
      have hkk : k = ⟨k.curve, cs.map Component.bits⟩ := by cases k; cases hpath; rfl
      obtain ⟨hrp, hst⟩ := hsucc ⟨d, hrep⟩
      refine ⟨l, k.curve, key, acc, hcv, by rw [← hkk]; exact hacc, hrev.confirmed hb ha, ?_, by rw [← hkk]; exact hst⟩
      rw [hrp] at hrep
      rw [hbody, ← Option.some.inj hrep]
      have hn : (UInt8.ofNat key.length).toNat = key.length := by
        have := publicKey_short hs hacc.derived
        rw [UInt8.toNat_ofNat']; omega
      simp only [List.cons_append, List.getD_cons_zero, hn, slice, List.drop_succ_cons, List.drop_zero, List.take_left]

/-- C66, removal: if `deauthorizeBaking` returns success, the user approved the review of the account that was
authorized, and no key is authorized, also after a restart. -/
theorem C66_deauthorize (cfg : Config) (new : NewDevice) (es : List (Env × Event)) (hes : ∀ e ∈ es, e.1.keyF.Detected)
    (hlen : es.length < 2 ^ 64) (cr : Crypto) (hs : cr.Sized) (hcr : ∀ e ∈ es, e.1.cr = cr) (past t rest : List Moment)
    (h : (Dev.factory new).trace cfg es = past ++ (t ++ rest)) (r : Response Unit)
    (ht : Talk deauthorizeBaking t r) (hr : r.returnCode = 0x9000) :
    ∃ l k key acc, l.st.storedKey = some k ∧ IsAccount cr k key acc ∧
      Confirmed cfg cr t l (manageReview "DeAuthorize Baking" acc) ∧
      ∀ s, s = l.next cfg ∨ s = (l.next cfg).relaunch → s.storedKey = none := by
  obtain ⟨q, seg, q', d, rfl, -, -, hsu, hbody⟩ := Talk.success h ht hr
  cases hsu with
  | @atOnce m hc hrun hrep =>
    exfalso
    have h' : (Dev.factory new).trace cfg es = (past ++ q) ++ m :: (q' ++ rest) := by rw [h]; simp
    obtain ⟨ea, eb, rfl, _, _, _, hout, _⟩ := Dev.trace_split h'
    rw [hout] at hrep
    obtain ⟨c, hk⟩ := hc.known hrun hrep
    obtain ⟨-, rfl⟩ := baking_only (ins := 0xac) rfl rfl hk
    rw [hc.step hrun hk] at hrep
    exact m.st.deauthorize_reply m.env 1 d hrep
  | @later m l b v hc ho hb ha hrep =>
    have h' : (Dev.factory new).trace cfg es = ((past ++ q) ++ m :: b) ++ l :: (q' ++ rest) := by rw [h]; simp
    obtain ⟨c, _, _, hk, hrun, hop⟩ := hc.opens ho
    obtain ⟨-, rfl⟩ := baking_only (ins := 0xac) rfl rfl hk
    cases hop with
    | addr h1 => rcases h1 with h1 | ⟨h1, _⟩ <;> cases h1
    | deauthorize h1 hks haddr =>
      rename_i k a
      obtain ⟨before, m0, b', ins, p1, p2, k, key, acc, heq, hb', -, -, -, hreq, hkey, hacc, hrev, hsucc⟩ :=
        C58_deauthorize cfg new es hes hlen cr hs hcr _ _ l h' a ha
      obtain ⟨rfl, rfl, rfl⟩ := same_opening heq ho hb hreq.apdu hb'
      exact ⟨l, k, key, acc, hkey, hacc, hrev.confirmed hb ha, (hsucc ⟨d, hrep⟩).2⟩

/-- C66, query with confirmation: if `queryAuthKeyWithCurve(true)` returns success, the user approved the review of the
authorized account, and its curve and path are returned. -/
theorem C66_query (cfg : Config) (new : NewDevice) (es : List (Env × Event)) (cr : Crypto) (hs : cr.Sized)
    (hcr : ∀ e ∈ es, e.1.cr = cr) (past t rest : List Moment)
    (h : (Dev.factory new).trace cfg es = past ++ (t ++ rest)) (r : Response (UInt8 × Bytes))
    (ht : Talk (queryAuthKey true) t r) (hr : r.returnCode = 0x9000) :
    ∃ l k key acc, l.st.storedKey = some k ∧ IsAccount cr k key acc ∧
      Confirmed cfg cr t l (manageReview "Query Authorized" acc) ∧
      r.body = some (curveCode k.curve, k.path.flatMap be32) := by
  obtain ⟨q, seg, q', d, rfl, -, -, hsu, hbody⟩ := Talk.success h ht hr
  cases hsu with
  | @atOnce m hc hrun hrep =>
    exfalso
    have h' : (Dev.factory new).trace cfg es = (past ++ q) ++ m :: (q' ++ rest) := by rw [h]; simp
    obtain ⟨ea, eb, rfl, _, _, _, hout, _⟩ := Dev.trace_split h'
    rw [hout] at hrep
    obtain ⟨c, hk⟩ := hc.known hrun hrep
    obtain ⟨-, rfl⟩ := baking_only (ins := 0xad) rfl rfl hk
    rw [hc.step hrun hk] at hrep
    exact m.st.queryAuth_reply m.env true 1 (by decide) d hrep
  | @later m l b v hc ho hb ha hrep =>
    have h' : (Dev.factory new).trace cfg es = ((past ++ q) ++ m :: b) ++ l :: (q' ++ rest) := by rw [h]; simp
    obtain ⟨c, _, _, hk, hrun, hop⟩ := hc.opens ho
    obtain ⟨-, rfl⟩ := baking_only (ins := 0xad) rfl rfl hk
    cases hop with
    | addr h1 => rcases h1 with h1 | ⟨h1, _⟩ <;> cases h1
    | query h1 hks haddr =>
      rename_i k a
      obtain ⟨before, m0, b', ins, p1, p2, key, acc, heq, hb', -, -, -, hreq, hkey, hacc, hrev, hrp⟩ :=
        C58_query cfg new es cr hs hcr _ _ l h' k a true ha
      obtain ⟨rfl, rfl, rfl⟩ := same_opening heq ho hb hreq.apdu hb'
      refine ⟨l, k, key, acc, hkey, hacc, hrev.confirmed hb ha, ?_⟩
      rw [hrp] at hrep
      rw [hbody, ← Option.some.inj hrep]
      exact queryAuth_body (storedKey_short hkey)

theorem setup_success (cfg : Config) (new : NewDevice) (es : List (Env × Event))
    (hes : ∀ e ∈ es, e.1.keyF.Detected ∧ ∀ r, (e.1.markF r).Sound)
    (hlen : es.length < 2 ^ 64) (cr : Crypto) (hs : cr.Sized) (hcr : ∀ e ∈ es, e.1.cr = cr) (past t rest : List Moment)
    (h : (Dev.factory new).trace cfg es = past ++ (t ++ rest)) (js : Js) (hjs : js.ReadsDecimal)
    (path : Bytes) (cs : List Component) (hcs : IsPathText path cs) (curve : UInt8) (main test chain : UInt32)
    (call : Client (Response (Bytes × Bytes))) (hcall : legacySetup js path curve main test chain = some call)
    (r : Response (Bytes × Bytes)) (ht : Talk call t r) (hr : r.returnCode = 0x9000) :
    ∃ l c key acc, Curve.ofByte curve = some c ∧ IsAccount cr ⟨c, cs.map Component.bits⟩ key acc ∧
      Confirmed cfg cr t l (setupReview acc chain main test) ∧
      (∀ s, s = l.next cfg ∨ s = (l.next cfg).relaunch → s.storedKey = some ⟨c, cs.map Component.bits⟩ ∧
        Reports cfg s main test chain) ∧ r.body = readLegacyKey js curve (UInt8.ofNat key.length :: key ++ [0x90, 0x00]) := by
  simp only [legacySetup, Option.map_eq_some_iff] at hcall
  obtain ⟨p, hp, rfl⟩ := hcall
  obtain ⟨q, seg, q', d, rfl, -, -, hsu, hbody⟩ := Talk.success h ht hr
  cases hsu with
  | @atOnce m hc hrun hrep =>
    exfalso
    have h' : (Dev.factory new).trace cfg es = (past ++ q) ++ m :: (q' ++ rest) := by rw [h]; simp
    obtain ⟨ea, eb, rfl, _, _, _, hout, _⟩ := Dev.trace_split h'
    rw [hout] at hrep
    obtain ⟨c, hk⟩ := hc.known hrun hrep
    obtain ⟨-, rfl⟩ := baking_only (ins := 0x0a) rfl rfl hk
    rw [hc.step hrun hk] at hrep
    exact m.st.setup_reply m.env curve _ d hrep
  | @later m l b v hc ho hb ha hrep =>
    have h' : (Dev.factory new).trace cfg es = ((past ++ q) ++ m :: b) ++ l :: (q' ++ rest) := by rw [h]; simp
    obtain ⟨c, _, _, hk, hrun, hop⟩ := hc.opens ho
    obtain ⟨-, rfl⟩ := baking_only (ins := 0x0a) rfl rfl hk
    cases hop with
    | addr h1 => rcases h1 with h1 | ⟨h1, _⟩ <;> cases h1
    | setup hcv hpl hl13 hn hrd haddr =>
      rename_i k p' a
      cases hpl
      generalize u32OfBe (slice (be32 chain ++ be32 main ++ be32 test ++ p) 4 4) = l1 at ha ho
      generalize u32OfBe (slice (be32 chain ++ be32 main ++ be32 test ++ p) 8 4) = l2 at ha ho
      obtain ⟨before, m0, b', p1, id, extra, key, acc, heq, hb', -, hreq, hdat, hacc, hrev, hsucc⟩ :=
        C58_setup cfg new es hes hlen cr hs hcr _ _ l h' k a _ _ _ ha
      obtain ⟨rfl, rfl, rfl⟩ := same_opening heq ho hb hreq.apdu hb'
      have hd := hc.payload hdat
      rw [sent_path hjs hcs hp] at hd
      simp only [List.append_assoc] at hd
      have hl : ∀ x : UInt32, (be32 x).length = 4 := fun x => by simp [be32]
      obtain ⟨e1, hd⟩ := List.append_inj hd (by rw [hl, hl])
      obtain ⟨e2, hd⟩ := List.append_inj hd (by rw [hl, hl])
      obtain ⟨e3, hd⟩ := List.append_inj hd (by rw [hl, hl])
      have inj : ∀ {x y : UInt32}, be32 x = be32 y → x = y := fun {x y} e => by
        rw [← u32OfBe_be32 x, ← u32OfBe_be32 y, e]
      have e1 := inj e1
      have e2 := inj e2
      have e3 := inj e3
      have hkl : k.path.length ≤ 10 := (Path.read_ok.mp hrd).2.1
      have hcl : cs.length < 256 := by
        have := C63_path_text js hjs path cs hcs
        rw [hp] at this
        split at this
        · rename_i hh; omega
        · cases this
      simp only [List.cons_append, List.cons.injEq] at hd
      have hlen' : k.path.length = (cs.map Component.bits).length := by
        have := congrArg UInt8.toNat hd.1
        rw [UInt8.toNat_ofNat', UInt8.toNat_ofNat', List.length_map] at this
        rw [List.length_map]
        omega
      have hpath : k.path = cs.map Component.bits := by
        refine flatMap_be32_inj (List.append_inj (t₁ := extra) (t₂ := []) ?_ ?_).1
        · rw [List.append_nil]; exact hd.2
        · rw [flatMap_be32_length, flatMap_be32_length, hlen']
      have hkk : k = ⟨k.curve, cs.map Component.bits⟩ := by cases k; cases hpath; rfl
      rw [e1, e2, e3] at hrev hsucc
      refine ⟨l, k.curve, key, acc, hcv, by rw [← hkk]; exact hacc, hrev.confirmed hb ha,
        by rw [← hkk]; exact (hsucc ⟨d, hrep⟩).2, ?_⟩
      have hd' := (hsucc ⟨d, hrep⟩).1
      rw [hrep] at hd'
      rw [hbody, Option.some.inj hd']

/-- C66, setup: if `legacySetup` returns success, the user approved the review of the account, the levels and the chain
id given, these are set, and the curve and path are authorized, also after a restart. -/
theorem C66_setup (cfg : Config) (new : NewDevice) (es : List (Env × Event))
    (hes : ∀ e ∈ es, e.1.keyF.Detected ∧ ∀ r, (e.1.markF r).Sound)
    (hlen : es.length < 2 ^ 64) (cr : Crypto) (hs : cr.Sized) (hcr : ∀ e ∈ es, e.1.cr = cr) (past t rest : List Moment)
    (h : (Dev.factory new).trace cfg es = past ++ (t ++ rest)) (js : Js) (hjs : js.ReadsDecimal)
    (path : Bytes) (cs : List Component) (hcs : IsPathText path cs) (curve : UInt8) (main test chain : UInt32)
    (call : Client (Response (Bytes × Bytes))) (hcall : legacySetup js path curve main test chain = some call)
    (r : Response (Bytes × Bytes)) (ht : Talk call t r) (hr : r.returnCode = 0x9000) :
    ∃ l c key acc, Curve.ofByte curve = some c ∧ IsAccount cr ⟨c, cs.map Component.bits⟩ key acc ∧
      Confirmed cfg cr t l (setupReview acc chain main test) ∧
      ∀ s, s = l.next cfg ∨ s = (l.next cfg).relaunch → s.storedKey = some ⟨c, cs.map Component.bits⟩ ∧
        Reports cfg s main test chain := by
  obtain ⟨l, c, key, acc, hc, hacc, hconf, hst, -⟩ :=
    setup_success cfg new es hes hlen cr hs hcr past t rest h js hjs path cs hcs curve main test chain call hcall r ht hr
  exact ⟨l, c, key, acc, hc, hacc, hconf, hst⟩

/-- C66, reset: if `legacyResetHighWatermark` returns success for a level, both watermarks are at this level, also after
a restart, and the authorized key is the one before. Levels of 2^31 and above are refused by the library. -/
theorem C66_reset (cfg : Config) (new : NewDevice) (es : List (Env × Event))
    (hes : ∀ e ∈ es, ∀ r, (e.1.markF r).Sound) (hlen : es.length < 2 ^ 64) (past t rest : List Moment)
    (h : (Dev.factory new).trace cfg es = past ++ (t ++ rest)) (level : Nat) :
    (2 ^ 31 ≤ level → legacyResetHighWatermark level = none) ∧
    ∀ call, legacyResetHighWatermark level = some call → ∀ r : Response Unit, Talk call t r → r.returnCode = 0x9000 →
      ∃ m ∈ t, ∃ ch, (m.next cfg).storedKey = m.st.storedKey ∧
        ∀ s, s = m.next cfg ∨ s = (m.next cfg).relaunch →
          Reports cfg s (UInt32.ofNat level) (UInt32.ofNat level) ch := by
  refine ⟨fun hl => ?_, fun call hcall r ht hr => ?_⟩
  · unfold legacyResetHighWatermark
    rw [if_neg (by omega)]
  · unfold legacyResetHighWatermark at hcall
    split at hcall
    · rename_i hrange
      cases hcall
      have hlev : ((level : Int) % 0x100000000).toNat = level := by omega
      rw [hlev] at ht
      obtain ⟨q, seg, q', d, rfl, -, -, hsu, hbody⟩ := Talk.success h ht hr
      cases hsu with
      | @atOnce m hc hrun hrep =>
        have h' : (Dev.factory new).trace cfg es = (past ++ q) ++ m :: (q' ++ rest) := by rw [h]; simp
        have hout : m.out = (m.st.step cfg m.env m.ev).2 := by
          obtain ⟨ea, eb, rfl, _, _, _, hout, _⟩ := Dev.trace_split h'
          exact hout
        have hrep' := hrep
        rw [hout] at hrep'
        obtain ⟨c, hk⟩ := hc.known hrun hrep'
        obtain ⟨-, rfl⟩ := baking_only (ins := 0x06) rfl rfl hk
        obtain ⟨buf, hrec, -, -, hpay⟩ := hc.received hrun hk
        obtain ⟨p, hp, -, hkey, ch, -, hrp⟩ :=
          C48_reset_takes_effect cfg new es hes hlen _ _ m h' buf _ hrec ⟨d, hrep⟩
        rw [hpay] at hp
        cases hp
        have e : (be32 (UInt32.ofNat level)).take 4 = be32 (UInt32.ofNat level) :=
          List.take_of_length_le (by simp [be32])
        rw [e, u32OfBe_be32] at hrp
        exact ⟨m, by simp, ch, hkey, hrp⟩
      | @later m l b v hc ho hb ha hrep =>
        exfalso
        obtain ⟨c, _, _, hk, hrun, hop⟩ := hc.opens ho
        obtain ⟨-, rfl⟩ := baking_only (ins := 0x06) rfl rfl hk
        cases hop with
        | addr h1 => rcases h1 with h1 | ⟨h1, _⟩ <;> cases h1
    · cases hcall

namespace Demo

/-- The hypothesis of `C64_baker_byte`, for the kinds of consensus messages. -/
example : [emmyBlock 5, emmyEndorsement 5, tbBlock 5 1, tbPreendorsement 5 1, tbEndorsement 5 1].map consensusItem =
    [some ⟨0, 5, 0, 0⟩, some ⟨0, 5, 0, 2⟩, some ⟨1, 5, 1, 0⟩, some ⟨1, 5, 1, 1⟩, some ⟨1, 5, 1, 2⟩] := by
  decide

/-- The calls of the library on the baking app: setup at level 5, a block, the watermarks, a reset, the authorized key
without and with confirmation, its removal, an authorization, an address. -/
def clientBakes : List (Env × Event) :=
  setup 5 ++ ok [apdu 0xaf 0 0 keyPath, apdu 0xaf 2 0 (tbBlock 7 1)] ++ ok [apdu 0x08 0 0 []] ++ ok [apdu 0x0b 0 0 []] ++
    reset 3 ++ ok [apdu 0xad 0 0 []] ++ (ok <| apdu 0xad 1 0 [] :: List.replicate 3 .right ++ [.both]) ++
    deauthorize ++ authorize ++ ok [apdu 0x11 0 0 keyPath] ++
    (ok <| apdu 0x11 1 0 keyPath :: List.replicate 2 .right ++ [.both]) ++ ok [apdu 0x10 0 0 []]

set_option maxRecDepth 100000 in
set_option synthInstance.maxSize 1000 in
/-- The hypotheses of `C64_kind`, the theorems of C65 and of C66. -/
example :
    let t := (Dev.factory ⟨.small, List.replicate uploadCapacity 0⟩).trace bakingApp clientBakes
    let key := ((crypto.publicKey .ed25519 [0x8000002c, 0x800006c1]).getD [])
    let k : UInt8 × Bytes := (0, keyPath.drop 1)
    ((legacySetup js pathText 0 5 0 0x7a06a770).bind fun c => play (t.take 8) (.inl c)).map (·.returnCode) =
      some 0x9000 ∧
    ((signBaker js pathText 0 ((tbBlock 7 1).drop 1) .blocklevel).bind fun c =>
      play ((t.drop 8).take 2) (.inl c)).map (·.returnCode) = some 0x9000 ∧
    play ((t.drop 10).take 1) (.inl legacyGetHighWatermark) = some ⟨0x9000, some 7⟩ ∧
    play ((t.drop 11).take 1) (.inl legacyGetAllWatermark) = some ⟨0x9000, some (7, 0, 0x7a06a770)⟩ ∧
    ((legacyResetHighWatermark 3).bind fun c => play ((t.drop 12).take 1) (.inl c)) = some ⟨0x9000, some ()⟩ ∧
    play ((t.drop 13).take 1) (.inl (queryAuthKey false)) = some ⟨0x9000, some k⟩ ∧
    play ((t.drop 14).take 5) (.inl (queryAuthKey true)) = some ⟨0x9000, some k⟩ ∧
    play ((t.drop 19).take 5) (.inl deauthorizeBaking) = some ⟨0x9000, some ()⟩ ∧
    ((authorizeBaking js pathText 0).bind fun c => play ((t.drop 24).take 5) (.inl c)) = some ⟨0x9000, some key⟩ ∧
    ((getAddress js false pathText 0).bind fun c => play ((t.drop 29).take 1) (.inl c)).map
      (fun r => (r.returnCode, r.body.map (·.1))) = some (0x9000, some key) ∧
    ((getAddress js true pathText 0).bind fun c => play ((t.drop 30).take 4) (.inl c)).map
      (fun r => (r.returnCode, r.body.map (·.1))) = some (0x9000, some key) ∧
    play (t.drop 34) (.inl getVersion) = some ⟨0x9000, some ⟨false, 2, 1, 0, false, 0x33000004⟩⟩ := by
  decide +kernel

end Demo

end Tezos
