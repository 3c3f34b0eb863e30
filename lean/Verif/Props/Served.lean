import Verif.Props.Work
import Verif.Props.Client
import Verif.Props.ClientCalls
/-
C88: the calls of the client return what the device grants.
-/
set_option linter.unusedSimpArgs false
set_option linter.unusedVariables false
namespace Tezos
open Spec

/-- The packets a call sends, the ones before the last being acknowledged. -/
inductive Sends {ρ : Type} : Client ρ → List Event → Prop where
  | done {r : ρ} : Sends (.done r) []
  | send {ins p1 p2 : UInt8} {data : Bytes} {next : Bytes → Client ρ} {ev : Event} {evs : List Event}
      (hc : Carries ev ins p1 p2 data) (h : Sends (next [0x90, 0x00]) evs) : Sends (.send ins p1 p2 data next) (ev :: evs)

/-- What a call returns that gets these answers. -/
def Client.after {ρ : Type} : Client ρ → List Bytes → Option ρ
  | .done r, [] => some r
  | .send _ _ _ _ next, a :: as => (next a).after as
  | _, _ => none

/-- The answers `as` to the packets, the last one after the user has pressed the buttons of `q` and `l`. -/
theorem Talk.of_after {ρ : Type} {call : Client ρ} {r : ρ} {tu : List Moment} {m : Moment} {a : Bytes} {seg : List Moment}
    (hs : Sends call (tu.map Moment.ev ++ [m.ev])) (hu : ∀ y ∈ tu, y.out.reply = some [0x90, 0x00])
    (hr : call.after (tu.map (fun _ => [0x90, 0x00]) ++ [a]) = some r)
    (hseg : ∀ ins p1 p2 data, Carries m.ev ins p1 p2 data → Exchange ins p1 p2 data a seg) :
    Talk call (tu ++ seg) r := by
  induction tu generalizing call with
  | nil =>
    cases hs with
    | @send ins p1 p2 data next ev evs hc h =>
      simp only [List.map_nil, List.nil_append, Client.after] at hr
      have : Talk (next a) [] r := by
        cases hn : next a with
        | done x => rw [hn] at hr; cases hr; exact .done
        | send => rw [hn] at hr; cases hr
      have := Talk.send (hseg _ _ _ _ hc) this
      simpa using this
  | cons y tu ih =>
    cases hs with
    | @send ins p1 p2 data next ev evs hc h =>
      simp only [List.map_cons, List.cons_append, Client.after] at hr
      have h2 := ih h (fun z hz => hu z (by simp [hz])) hr
      exact Talk.send (s := [y]) (.atOnce hc (hu y (by simp))) h2

theorem Dev.trace_events (cfg : Config) (s : Dev) (es : List (Env × Event)) :
    (s.trace cfg es).map Moment.ev = es.map Prod.snd := by
  induction es generalizing s with
  | nil => rfl
  | cons x xs ih =>
    simp only [Dev.trace, List.map_cons, List.cons.injEq, true_and]
    exact ih _

theorem Dev.trace_length (cfg : Config) (s : Dev) (es : List (Env × Event)) :
    (s.trace cfg es).length = es.length := by
  simpa using congrArg List.length (Dev.trace_events cfg s es)

/-- A call the packets of which are acknowledged up to the last, which is answered at once. -/
theorem Talk.at_once {ρ : Type} {cfg : Config} {s : Dev} {call : Client ρ} {r : ρ} {us : List (Env × Event)} {env : Env}
    {ev : Event} (hs : Sends call (us.map Prod.snd ++ [ev])) {a : Bytes} {x : Option SigRec}
    (hrun : (s.run cfg (us ++ [(env, ev)])).2 = (us.map fun _ => ⟨some [0x90, 0x00], none, none⟩) ++ [⟨some a, x, none⟩])
    (hr : call.after (us.map (fun _ => [0x90, 0x00]) ++ [a]) = some r) :
    Talk call (s.trace cfg (us ++ [(env, ev)])) r := by
  rw [Dev.trace_outputs, Dev.trace_append, List.map_append] at hrun
  rw [Dev.trace_append]
  obtain ⟨h1, h2⟩ := List.append_inj hrun (by simp [Dev.trace_length])
  have hev := Dev.trace_events cfg s us
  refine Talk.of_after (m := ⟨(s.run cfg us).1, env, ev, ((s.run cfg us).1.step cfg env ev).2⟩) (a := a) (by rw [hev]; exact hs)
    (fun y hy => ?_) ?_ ?_
  · have : y.out ∈ (s.trace cfg us).map Moment.out := List.mem_map_of_mem hy
    rw [h1] at this
    obtain ⟨_, -, e⟩ := List.mem_map.mp this
    rw [← e]
  · rw [← hr]
    congr 1
    congr 1
    rw [List.map_const', List.map_const', Dev.trace_length]
  · intro ins p1 p2 data hc
    simp only [Dev.trace, List.map_cons, List.map_nil, List.cons.injEq, and_true] at h2
    refine .atOnce hc ?_
    rw [h2]

/-- A call the packets of which are acknowledged up to the last, which the user reads and approves. -/
theorem Talk.approved {ρ : Type} {cfg : Config} {s : Dev} {call : Client ρ} {r : ρ} {us : List (Env × Event)} {env : Env}
    {ev : Event} (hs : Sends call (us.map Prod.snd ++ [ev])) {env' : Env} {screens : List Screen} {a : Bytes}
    {x : Option SigRec}
    (hrun : (s.run cfg (us ++ (env, ev) :: readAndApprove env' screens)).2 =
      (us.map fun _ => ⟨some [0x90, 0x00], none, none⟩) ++
        .quiet :: (List.replicate screens.length .quiet ++ [⟨some a, x, none⟩]))
    (hr : call.after (us.map (fun _ => [0x90, 0x00]) ++ [a]) = some r) :
    Talk call (s.trace cfg (us ++ (env, ev) :: readAndApprove env' screens)) r := by
  rw [Dev.trace_outputs, Dev.trace_append, List.map_append] at hrun
  rw [Dev.trace_append]
  obtain ⟨h1, h2⟩ := List.append_inj hrun (by simp [Dev.trace_length])
  have hev := Dev.trace_events cfg s us
  refine Talk.of_after (m := ⟨(s.run cfg us).1, env, ev, ((s.run cfg us).1.step cfg env ev).2⟩) (a := a) (by rw [hev]; exact hs)
    (fun y hy => ?_) ?_ ?_
  · have : y.out ∈ (s.trace cfg us).map Moment.out := List.mem_map_of_mem hy
    rw [h1] at this
    obtain ⟨_, -, e⟩ := List.mem_map.mp this
    rw [← e]
  · rw [← hr]
    congr 1
    congr 1
    rw [List.map_const', List.map_const', Dev.trace_length]
  · intro ins p1 p2 data hc
    simp only [Dev.trace, List.map_cons, List.cons.injEq] at h2
    obtain ⟨h2, h3⟩ := h2
    simp only [readAndApprove, Dev.trace_append, List.map_append] at h3
    obtain ⟨h3, h4⟩ := List.append_inj h3 (by simp [Dev.trace_length])
    simp only [Dev.trace, readAndApprove, Dev.trace_append]
    refine .later hc (by rw [h2]; rfl) (fun y hy => ⟨?_, ?_⟩) rfl ?_
    · have : y.ev ∈ (Dev.trace cfg ((s.run cfg us).1.step cfg env ev).1
        (List.replicate screens.length (env', .right))).map Moment.ev := List.mem_map_of_mem hy
      rw [Dev.trace_events] at this
      simp only [List.map_replicate, List.mem_replicate] at this
      rw [this.2]
      rfl
    · have : y.out ∈ (Dev.trace cfg ((s.run cfg us).1.step cfg env ev).1
        (List.replicate screens.length (env', .right))).map Moment.out := List.mem_map_of_mem hy
      rw [h3] at this
      rw [(List.mem_replicate.mp this).2]
      rfl
    · simp only [Dev.trace, List.map_cons, List.map_nil, List.cons.injEq, and_true] at h4
      rw [h4]

/-! ### The packets and the result of a signing call -/

theorem Sends.transport {α ρ : Type} {ins p1 p2 : UInt8} {data : Bytes} {codes : List Nat} {f : Bytes → Option α}
    {k : Response α → Client ρ} {evs : List Event} (hd : data.length < 256) (hok : 0x9000 ∈ codes)
    (h : Sends (((transport ins p1 p2 data codes).process f).bind k) evs) :
    ∃ ev evs', evs = ev :: evs' ∧ Carries ev ins p1 p2 data ∧ Sends (k ⟨0x9000, f [0x90, 0x00]⟩) evs' := by
  unfold Tezos.transport at h
  rw [if_neg (by omega)] at h
  simp only [Client.process, Client.bind] at h
  cases h with
  | @send _ _ _ _ _ ev evs hc h =>
    have e : statusOf [0x90, 0x00] = 0x9000 := by decide
    simp only [List.length_cons, List.length_nil, Nat.reduceAdd, Nat.lt_irrefl, if_false, e, hok, if_true] at h
    exact ⟨ev, evs, rfl, hc, h⟩

theorem Client.after_transport {α ρ : Type} {ins p1 p2 : UInt8} {data : Bytes} {codes : List Nat} {f : Bytes → Option α}
    {k : Response α → Client ρ} {a : Bytes} {as : List Bytes} (hd : data.length < 256) (hl : 2 ≤ a.length)
    (hok : statusOf a ∈ codes) :
    (((transport ins p1 p2 data codes).process f).bind k).after (a :: as) = (k ⟨statusOf a, f a⟩).after as := by
  unfold Tezos.transport
  rw [if_neg (by omega)]
  simp only [Client.process, Client.bind, Client.after]
  rw [if_neg (by omega), if_pos hok]
  rfl

theorem Client.bind_done {ρ : Type} (c : Client ρ) : c.bind Client.done = c := by
  induction c with
  | done r => rfl
  | send ins p1 p2 data next ih =>
    simp only [Client.bind]
    congr 1
    funext a
    exact ih a

/-- The packets after the first one. -/
theorem SignCall.sendRest_sends {c : SignCall} {num : Nat} {chunks : List Bytes} (hne : chunks ≠ [])
    (hl : ∀ x ∈ chunks, x.length < 256) {i : Nat} (hi : 1 ≤ i) (hnum : num = i + chunks.length) {r0 : SignResponse}
    {evs : List Event} (h : Sends (c.sendRest num i chunks r0) evs) :
    ∃ mids ev p1 d1 d2, evs = mids ++ [ev] ∧ Chunks c.ins mids d1 ∧ Carries ev c.ins p1 0 d2 ∧ role p1 = some .closing ∧
      chunks.flatten = d1 ++ d2 ∧ mids.length + 1 = chunks.length := by
  induction chunks generalizing i r0 evs with
  | nil => exact absurd rfl hne
  | cons x xs ih =>
    unfold SignCall.sendRest SignCall.sendChunk at h
    obtain ⟨ev, evs', rfl, hc, h⟩ := Sends.transport (hl x (by simp)) (by simp) h
    rw [if_neg (by omega)] at hc
    have hrole := c.p1_role (idx := 1 + i) (num := num) (by omega)
    simp only [ne_eq, not_true_eq_false, if_false] at h
    cases xs with
    | nil =>
      rw [if_pos (by rw [hnum]; simp; omega)] at hrole
      unfold SignCall.sendRest at h
      cases h
      exact ⟨[], ev, _, [], x, rfl, .nil, hc, hrole, by simp, rfl⟩
    | cons y ys =>
      rw [if_neg (by rw [hnum]; simp; omega)] at hrole
      obtain ⟨mids, e, p1, d1, d2, rfl, h1, h2, h3, h4, h5⟩ := ih (by simp) (fun z hz => hl z (by simp [hz])) (i := i + 1)
        (by omega) (by rw [hnum]; simp; omega) h
      exact ⟨ev :: mids, e, p1, x ++ d1, d2, rfl, .cons hrole hc h1, h2, h3, by simp at h4 ⊢; exact h4, by simp at h5 ⊢; exact h5⟩

theorem SignCall.sendRest_after {c : SignCall} {num : Nat} {chunks : List Bytes} (hne : chunks ≠ [])
    (hl : ∀ x ∈ chunks, x.length < 256) {i : Nat} {r0 : SignResponse} {a : Bytes} (ha : 2 ≤ a.length)
    (hok : statusOf a ∈ [0x9000, 0x6984, 0x6a80, 0x6f01]) {n : Nat} (hn : n + 1 = chunks.length) :
    (c.sendRest num i chunks r0).after (List.replicate n [0x90, 0x00] ++ [a]) = some ⟨statusOf a, c.readAnswer a⟩ := by
  induction chunks generalizing i r0 n with
  | nil => exact absurd rfl hne
  | cons x xs ih =>
    unfold SignCall.sendRest SignCall.sendChunk
    cases xs with
    | nil =>
      have : n = 0 := by simp at hn; exact hn
      subst this
      simp only [List.replicate_zero, List.nil_append]
      rw [Client.after_transport (hl x (by simp)) ha hok]
      split <;> rfl
    | cons y ys =>
      obtain ⟨m, rfl⟩ : ∃ m, n = m + 1 := ⟨n - 1, by simp at hn; omega⟩
      simp only [List.replicate_succ, List.cons_append]
      have e : statusOf [0x90, 0x00] = 0x9000 := by decide
      rw [Client.after_transport (hl x (by simp)) (by simp) (by rw [e]; simp)]
      simp only [e, ne_eq, not_true_eq_false, if_false]
      exact ih (by simp) (fun z hz => hl z (by simp [hz])) (by simp at hn ⊢; omega)

theorem prepareChunks_short {message path : Bytes} : ∀ x ∈ (prepareChunks message path).tail, x.length < 256 := by
  intro x hx
  simp only [prepareChunks, List.tail_cons, List.mem_map] at hx
  obtain ⟨k, -, rfl⟩ := hx
  have := slice_length_le message (chunkSize * k) chunkSize
  unfold chunkSize at *
  omega

/-- A signing call uploads the message, and returns the answer to the last packet. -/
theorem SignCall.sign_sends {js : Js} {c : SignCall} {path p msg : Bytes} (hp : serializePath js path = some p)
    (hpl : p.length < 256) (hm : msg ≠ []) {evs : List Event} (h : Sends (c.sign js path msg) evs) :
    ∃ us ev p1 d1 d2, evs = us ++ [ev] ∧ msg = d1 ++ d2 ∧ Uploading c.ins c.curve p d1 us ∧ Carries ev c.ins p1 0 d2 ∧
      role p1 = some .closing ∧ ∀ a, 2 ≤ a.length → statusOf a ∈ [0x9000, 0x6984, 0x6a80, 0x6f01] →
        (c.sign js path msg).after (List.replicate us.length [0x90, 0x00] ++ [a]) =
          some ⟨statusOf a, c.readAnswer a⟩ := by
  obtain ⟨chunks, hcs, hne, hflat⟩ := prepareChunks_eq msg p hm
  have hl : ∀ x ∈ chunks, x.length < 256 := by
    have := prepareChunks_short (message := msg) (path := p)
    rwa [hcs] at this
  have hsign : c.sign js path msg = c.sendAll (p :: chunks) := by
    unfold SignCall.sign
    rw [hp]
    simp only [hcs]
  rw [hsign] at h ⊢
  unfold SignCall.sendAll SignCall.sendChunk at h
  obtain ⟨ev, evs', rfl, hc, h⟩ := Sends.transport hpl (by simp) h
  rw [if_pos rfl] at hc
  have hrole : role (c.p1 1 (1 + chunks.length)) = some .opening := by
    have : 1 ≠ 1 + chunks.length := by
      have := List.length_pos_iff.mpr hne
      omega
    unfold SignCall.p1
    simp only [if_true, if_neg this]
    decide
  obtain ⟨mids, e, p1, d1, d2, rfl, h1, h2, h3, h4, h5⟩ := SignCall.sendRest_sends hne hl (by omega) rfl h
  refine ⟨ev :: mids, e, p1, d1, d2, rfl, by rw [← hflat, h4], .mk hrole hc h1, h2, h3, fun a ha hok => ?_⟩
  simp only [List.length_cons, List.replicate_succ, List.cons_append]
  unfold SignCall.sendAll SignCall.sendChunk
  have e : statusOf [0x90, 0x00] = 0x9000 := by decide
  rw [Client.after_transport hpl (by simp) (by rw [e]; simp)]
  exact SignCall.sendRest_after hne hl ha hok h5

/-! ### Keys, packets and results -/

/-- A text and the byte of a curve name this key: the path has two or four components with indices below `2 ^ 31`. -/
structure NamesKey (path : Bytes) (curve : UInt8) (k : PathAndCurve) : Prop where
  curve : curve = curveCode k.curve
  path : ∃ cs, IsPathText path cs ∧ (cs.length = 2 ∨ cs.length = 4) ∧ (∀ c ∈ cs, c.index < 2 ^ 31) ∧
    k.path = cs.map Component.bits

theorem NamesKey.serialize {js : Js} (hjs : js.ReadsDecimal) {path : Bytes} {curve : UInt8} {k : PathAndCurve}
    (h : NamesKey path curve k) : serializePath js path = some k.path.serialize ∧
      (k.path.length = 2 ∨ k.path.length = 4) ∧ k.path.serialize.length ≤ 17 := by
  obtain ⟨cs, h1, h2, h3, h4⟩ := h.path
  have hl : k.path.length = cs.length := by rw [h4, List.length_map]
  refine ⟨?_, by omega, ?_⟩
  · rw [C63_path_text js hjs path cs h1, if_pos ⟨h2, h3⟩, Path.serialize, h4, List.length_map]
  · unfold Path.serialize
    rw [List.length_cons, flatMap_be32_length]
    omega

theorem NamesKey.names {path : Bytes} {curve : UInt8} {k : PathAndCurve} (h : NamesKey path curve k) {n : Nat}
    (hn : 4 ≤ n) : Names n curve k.path.serialize k := by
  obtain ⟨cs, -, h2, -, h4⟩ := h.path
  have hl : k.path.length = cs.length := by rw [h4, List.length_map]
  exact ⟨h.curve, rfl, by omega, by omega⟩

/-- The packets that a call sends reach the device, and its memory takes them: `us` the ones that are acknowledged, `ev`
the last. -/
structure Calls {ρ : Type} (call : Client ρ) (us : List (Env × Event)) (env : Env) (ev : Event) : Prop where
  packets : Sends call (us.map Prod.snd ++ [ev])
  flash : ∀ e ∈ us, e.1.copyF = .done ∧ e.1.appendF = .done
  last : env.copyF = .done ∧ env.appendF = .done

theorem SigningRequest.sent {js : Js} (hjs : js.ReadsDecimal) {path : Bytes} {curve : UInt8} {message : Bytes} {b : UInt8}
    {k : PathAndCurve} (hk : NamesKey path curve k) (hfit : message.length ≤ 8172) {c : SignCall} (hcurve : c.curve = curve)
    (hwith : c.withHash = true) {us : List (Env × Event)} {env : Env} {ev : Event}
    (h : Calls (SignCall.sign js c path (b :: message)) us env ev) :
    Sent c.ins k (b :: message) us env ev ∧ ∀ digest sig : Bytes, digest.length = 32 →
      (SignCall.sign js c path (b :: message)).after
        (us.map (fun _ => [0x90, 0x00]) ++ [digest ++ sig ++ [0x90, 0x00]]) = some ⟨0x9000, some (digest, sig)⟩ := by
  obtain ⟨hp, hlen, hpl⟩ := hk.serialize hjs
  obtain ⟨us', ev', p1, d1, d2, he, hm, hup, hev, hrole, hafter⟩ :=
    SignCall.sign_sends hp (by omega) (by simp) h.packets
  obtain ⟨rfl, he'⟩ := List.append_inj' he rfl
  cases he'
  refine ⟨⟨⟨p1, curve, 0, d1, d2, hm, by rw [hk.curve]; exact curveCode_ofByte _, by rw [← hcurve]; exact hup, hev, hrole⟩,
    by omega, by simp; omega, h.flash, h.last⟩, fun digest sig hl => ?_⟩
  have hst : statusOf (digest ++ sig ++ [0x90, 0x00]) = 0x9000 := statusOf_append _ 0x90 0x00
  have := hafter (digest ++ sig ++ [0x90, 0x00]) (by simp; omega) (by rw [hst]; simp)
  rw [List.length_map] at this
  rw [List.map_const', this, hst]
  unfold SignCall.readAnswer
  rw [if_pos ⟨hst, by simp [hl]; omega⟩, if_pos hwith]
  rw [dropStatus_append, List.append_assoc, ← hl, List.take_left, List.drop_left]

/-- The call returns `r` after the user has seen these screens, pressing the right button, and then both buttons. -/
structure ReturnsAfterReading {ρ : Type} (cfg : Config) (s : Dev) (call : Client ρ) (us : List (Env × Event)) (env : Env)
    (ev : Event) (env' : Env) (screens : List Screen) (r : ρ) : Prop where
  seen : ((s.run cfg (us ++ [(env, ev)])).1.trace cfg (List.replicate screens.length (env', .right))).map
    (fun m => m.st.zui.screen) = screens
  talk : Talk call (s.trace cfg (us ++ (env, ev) :: readAndApprove env' screens)) r

theorem SignedAfterReading.returns {cfg : Config} {s : Dev} {call : Client SignResponse} {us : List (Env × Event)}
    {env : Env} {ev : Event} {env' : Env} {screens : List Screen} {x : SigRec}
    (h : SignedAfterReading cfg s us env ev env' screens true x) (hs : Sends call (us.map Prod.snd ++ [ev]))
    {r : SignResponse}
    (hr : call.after (us.map (fun _ => [0x90, 0x00]) ++ [x.digest ++ x.sig ++ [0x90, 0x00]]) = some r) :
    ReturnsAfterReading cfg s call us env ev env' screens r :=
  ⟨h.seen, Talk.approved hs h.replies hr⟩

theorem GrantedAfterReading.returns {ρ : Type} {cfg : Config} {s : Dev} {call : Client ρ} {env : Env} {ev : Event}
    {env' : Env} {screens : List Screen} {data : Bytes} (h : GrantedAfterReading cfg s env ev env' screens data)
    (hs : Sends call [ev]) {r : ρ} (hr : call.after [data ++ [0x90, 0x00]] = some r) :
    ReturnsAfterReading cfg s call [] env ev env' screens r :=
  ⟨h.seen, Talk.approved (us := []) hs h.replies hr⟩

theorem SigningRequest.baker {js : Js} {path : Bytes} {curve : UInt8} {message : Bytes} {b : UInt8}
    {call : Client SignResponse} (h : SigningRequest js path curve message b call) (h3 : b ≠ 3) (h5 : b ≠ 5) :
    ∃ c : SignCall, c.ins ∈ [0x04, 0x0F, 0xAF] ∧ c.ins ≠ 0x04 ∧ c.curve = curve ∧ c.withHash = true ∧
      call = SignCall.sign js c path (b :: message) := by
  cases h with
  | operation => exact absurd rfl h3
  | michelson => exact absurd rfl h5
  | delegation => exact absurd rfl h3
  | legacyOperation => exact absurd rfl h3
  | legacyMichelson => exact absurd rfl h5
  | block hv hc =>
    refine ⟨⟨0xaf, false, true, curve⟩, by simp, by simp, rfl, rfl, ?_⟩
    rcases hv with ⟨h | h, rfl⟩ | ⟨h, rfl⟩ <;>
    · simp only [signBaker, BakerMessage.magic, h, Option.map_some, Option.some.injEq] at hc
      exact hc.symm
  | endorsement hv hc =>
    refine ⟨⟨0xaf, false, true, curve⟩, by simp, by simp, rfl, rfl, ?_⟩
    rcases hv with ⟨h, rfl⟩ | ⟨h, rfl⟩ | ⟨h1, h2, rfl⟩
    · simp only [signBaker, BakerMessage.magic, h, Option.map_some, Option.some.injEq] at hc
      exact hc.symm
    · simp only [signBaker, BakerMessage.magic, h, Option.map_some, Option.some.injEq] at hc
      exact hc.symm
    · have : BakerMessage.magic .endorsement message = some 0x02 := by
        simp only [BakerMessage.magic]
      simp only [signBaker, this, Option.map_some, Option.some.injEq] at hc
      exact hc.symm
  | legacyBlock => exact ⟨⟨0x0f, true, true, curve⟩, by simp, by simp, rfl, rfl, rfl⟩
  | legacyEndorsement => exact ⟨⟨0x0f, true, true, curve⟩, by simp, by simp, rfl, rfl, rfl⟩

/-! ### C88 -/

/-- C88, operations: whatever was done before, if the client is asked to sign a batch of operations that the display can
show, and the user reads on and approves, the call returns the digest and the signature of this batch by this key. -/
theorem C88_operation (cfg : Config) (new : NewDevice) (hu : new.upload.length = uploadCapacity)
    (es : List (Env × Event)) (hes : ∀ e ∈ es, Good e.1 e.2) (s : Dev) (hs : s = ((Dev.factory new).run cfg es).1)
    (hrun : s.running = true) (js : Js) (hjs : js.ReadsDecimal) (path : Bytes) (curve : UInt8) (k : PathAndCurve)
    (hk : NamesKey path curve k) (branch : Bytes) (hb : branch.length = 32) (ops : List Operation)
    (hv : ∀ o ∈ ops, o.Valid) (rest : Bytes) (hr : IsOpaque rest) (hn : (batchReview branch ops rest).length < 256)
    (hread : ∀ e ∈ batchReview branch ops rest, e.2.Readable) (message : Bytes)
    (hmsg : message = branch ++ (ops.flatMap Operation.encode ++ rest)) (hfit : message.length ≤ 8172)
    (call : Client SignResponse) (hcall : call = signOperation js path curve message ∨
      cfg.build = .wallet ∧ call = legacySignWithHash js path curve message .operation)
    (us : List (Env × Event)) (env : Env) (ev : Event) (hsent : Calls call us env ev) (hw : env.cr.Works) (env' : Env)
    (hcr : env'.cr = env.cr) (digest sig : Bytes) (hd : env.cr.blake2b 32 (0x03 :: message) = some digest)
    (hsig : env.cr.sign k.curve k.path digest = some sig) :
    ∃ screens, (∀ e ∈ batchReview branch ops rest, UserRead env.cr.hashes screens e) ∧
      ReturnsAfterReading cfg s call us env ev env' screens ⟨0x9000, some (digest, sig)⟩ := by
  obtain ⟨c, hins, hh, hcur, hwith, rfl⟩ : ∃ c : SignCall, c.ins ∈ generalIns cfg.build ∧ c.ins ∈ hashInstructions ∧
      c.curve = curve ∧ c.withHash = true ∧ call = SignCall.sign js c path (0x03 :: message) := by
    rcases hcall with rfl | ⟨hb', rfl⟩
    · exact ⟨⟨0x12, false, true, curve⟩, by cases cfg.build <;> simp [generalIns], by simp [hashInstructions], rfl, rfl, rfl⟩
    · exact ⟨⟨0x0f, true, true, curve⟩, by rw [hb']; simp [generalIns], by simp [hashInstructions], rfl, rfl, rfl⟩
  obtain ⟨hse, haf⟩ := SigningRequest.sent hjs hk hfit hcur hwith hsent
  obtain ⟨screens, h1, h2⟩ := C84_batch_signed_partial cfg new hu es hes s hs hrun c.ins hins k branch hb ops hv rest hr hn
    hread (0x03 :: message) (by rw [hmsg]) us env ev hse hw env' hcr digest sig hd hsig
  rw [decide_eq_true hh] at h2
  exact ⟨screens, h1, h2.returns hsent.packets (haf digest sig (hw.sized.blake2b hd))⟩

/-- C88, expressions: the same for a Michelson expression, of which the user reads the digest. -/
theorem C88_expression (cfg : Config) (new : NewDevice) (hu : new.upload.length = uploadCapacity)
    (es : List (Env × Event)) (hes : ∀ e ∈ es, Good e.1 e.2) (s : Dev) (hs : s = ((Dev.factory new).run cfg es).1)
    (hrun : s.running = true) (js : Js) (hjs : js.ReadsDecimal) (path : Bytes) (curve : UInt8) (k : PathAndCurve)
    (hk : NamesKey path curve k) (message : Bytes) (hfit : message.length ≤ 8172)
    (call : Client SignResponse) (hcall : call = signMichelson js path curve message ∨
      cfg.build = .wallet ∧ call = legacySignWithHash js path curve message .michelson)
    (us : List (Env × Event)) (env : Env) (ev : Event) (hsent : Calls call us env ev) (hw : env.cr.Sized) (env' : Env)
    (hcr : env'.cr = env.cr) (digest sig : Bytes) (hd : env.cr.blake2b 32 (0x05 :: message) = some digest)
    (hsig : env.cr.sign k.curve k.path digest = some sig) :
    ∃ screens, (∃ text, readHex text = some digest ∧ Reads screens (ascii "Sign Michelson") text) ∧
      ReturnsAfterReading cfg s call us env ev env' screens ⟨0x9000, some (digest, sig)⟩ := by
  obtain ⟨c, hins, hh, hcur, hwith, rfl⟩ : ∃ c : SignCall, c.ins ∈ generalIns cfg.build ∧ c.ins ∈ hashInstructions ∧
      c.curve = curve ∧ c.withHash = true ∧ call = SignCall.sign js c path (0x05 :: message) := by
    rcases hcall with rfl | ⟨hb', rfl⟩
    · exact ⟨⟨0x12, false, true, curve⟩, by cases cfg.build <;> simp [generalIns], by simp [hashInstructions], rfl, rfl, rfl⟩
    · exact ⟨⟨0x0f, true, true, curve⟩, by rw [hb']; simp [generalIns], by simp [hashInstructions], rfl, rfl, rfl⟩
  obtain ⟨hse, haf⟩ := SigningRequest.sent hjs hk hfit hcur hwith hsent
  obtain ⟨screens, h1, h2⟩ := C84_expression_signed cfg new hu es hes s hs hrun c.ins hins k message us env ev hse hw env'
    hcr digest sig hd hsig
  rw [decide_eq_true hh] at h2
  exact ⟨screens, h1, h2.returns hsent.packets (haf digest sig (hw.blake2b hd))⟩

/-- C88, delegations: the same for `signBaker` with a delegation or revelation by the authorized key. -/
theorem C88_delegation (cfg : Config) (hcfg : cfg.build = .baking) (new : NewDevice)
    (hu : new.upload.length = uploadCapacity) (es : List (Env × Event)) (hes : ∀ e ∈ es, Good e.1 e.2) (s : Dev)
    (hs : s = ((Dev.factory new).run cfg es).1) (hrun : s.running = true) (js : Js) (hjs : js.ReadsDecimal) (path : Bytes)
    (curve : UInt8) (k : PathAndCurve) (hk : NamesKey path curve k) (hauth : s.storedKey = some k) (branch : Bytes)
    (hb : branch.length = 32) (o : Operation) (hv : o.Valid)
    (hkind : (∃ m d, o = .delegation m d) ∨ ∃ m kind key, o = .reveal m kind key)
    (hread : ∀ e ∈ batchReview branch [o] [], e.2.Readable) (tail message : Bytes)
    (hmsg : message = branch ++ (o.encode ++ tail)) (hfit : message.length ≤ 8172) (call : Client SignResponse)
    (hcall : signBaker js path curve message .delegation = some call ∨
      call = legacySignWithHash js path curve message .operation) (us : List (Env × Event)) (env : Env) (ev : Event)
    (hsent : Calls call us env ev) (hw : env.cr.Works) (env' : Env) (hcr : env'.cr = env.cr) (digest sig : Bytes)
    (hd : env.cr.blake2b 32 (0x03 :: message) = some digest) (hsig : env.cr.sign k.curve k.path digest = some sig) :
    ∃ screens, (∀ e ∈ batchReview branch [o] [], UserRead env.cr.hashes screens e) ∧
      ReturnsAfterReading cfg s call us env ev env' screens ⟨0x9000, some (digest, sig)⟩ := by
  obtain ⟨c, hins, hh, hcur, hwith, rfl⟩ : ∃ c : SignCall, c.ins ∈ [0x04, 0x0F, 0xAF] ∧ c.ins ∈ hashInstructions ∧
      c.curve = curve ∧ c.withHash = true ∧ call = SignCall.sign js c path (0x03 :: message) := by
    rcases hcall with hc | rfl
    · cases hc
      exact ⟨⟨0xaf, false, true, curve⟩, by simp, by simp [hashInstructions], rfl, rfl, rfl⟩
    · exact ⟨⟨0x0f, true, true, curve⟩, by simp, by simp [hashInstructions], rfl, rfl, rfl⟩
  obtain ⟨hse, haf⟩ := SigningRequest.sent hjs hk hfit hcur hwith hsent
  obtain ⟨screens, h1, h2⟩ := C84_delegation_signed_partial cfg hcfg new hu es hes s hs hrun c.ins hins k hauth branch hb o
    hv hkind hread tail (0x03 :: message) (by rw [hmsg]) us env ev hse hw env' hcr digest sig hd hsig
  rw [decide_eq_true hh] at h2
  exact ⟨screens, h1, h2.returns hsent.packets (haf digest sig (hw.sized.blake2b hd))⟩

/-- C88, baking: a block or an endorsement above the watermark, given to `signBaker` or to `legacySignWithHash`, comes
back with its digest and its signature by the authorized key, and the user is not asked. -/
theorem C88_consensus (cfg : Config) (hcfg : cfg.build = .baking) (new : NewDevice)
    (hu : new.upload.length = uploadCapacity) (es : List (Env × Event)) (hes : ∀ e ∈ es, Good e.1 e.2) (s : Dev)
    (hs : s = ((Dev.factory new).run cfg es).1) (js : Js) (hjs : js.ReadsDecimal) (path : Bytes)
    (curve : UInt8) (k : PathAndCurve) (hk : NamesKey path curve k) (b : UInt8) (message : Bytes) (it : Item)
    (hready : Ready s k (b :: message) it) (hfit : message.length ≤ 8172) :
    (∃ call, signBaker js path curve message (if it.rank = 0 then .blocklevel else .endorsement) = some call ∧
      SigningRequest js path curve message b call) ∧
    ∀ call, SigningRequest js path curve message b call → ∀ us env ev, Calls call us env ev → env.cr.Sized →
      env.mainF = .done → ∀ digest sig, env.cr.blake2b 32 (b :: message) = some digest →
      env.cr.sign k.curve k.path digest = some sig →
      Talk call (s.trace cfg (us ++ [(env, ev)])) ⟨0x9000, some (digest, sig)⟩ := by
  refine ⟨C64_baker_byte js path curve b message it hready.item, ?_⟩
  intro call hcall us env ev hsent hw hf digest sig hd hsig
  have hno : b ≠ 3 ∧ b ≠ 5 := by
    have := hready.item
    constructor <;> rintro rfl <;> simp [consensusItem] at this
  obtain ⟨c, hins, hne, hcur, hwith, rfl⟩ : ∃ c : SignCall, c.ins ∈ [0x04, 0x0F, 0xAF] ∧ c.ins ≠ 0x04 ∧
      c.curve = curve ∧ c.withHash = true ∧ call = SignCall.sign js c path (b :: message) :=
    hcall.baker hno.1 hno.2
  obtain ⟨hse, haf⟩ := SigningRequest.sent hjs hk hfit hcur hwith hsent
  obtain ⟨p1, p2, q2, d1, d2, hm, hc, hup, hev, hrole⟩ := hse.ex
  rw [hm] at hready hd
  have := C14_fresh_message_is_signed cfg hcfg new hu es hes s hs c.ins hins p1 p2 q2 k _ d1 d2 it hready hc rfl hse.path
    (by rw [← hm]; exact hse.fit) us env ev hse.flash hse.last hup hev hrole digest sig hd hsig hf
  rw [if_neg hne] at this
  exact Talk.at_once hsent.packets this (haf digest sig (hw.blake2b hd))

theorem transport_sends {α : Type} {ins p1 p2 : UInt8} {data : Bytes} (hd : data.length < 256) {f : Bytes → Option α}
    {evs : List Event} (h : Sends ((transport ins p1 p2 data).process f) evs) : ∃ ev, evs = [ev] ∧ Carries ev ins p1 p2 data := by
  rw [← Client.bind_done ((transport ins p1 p2 data).process f)] at h
  obtain ⟨ev, evs', rfl, hc, h⟩ := Sends.transport hd (by simp) h
  cases h
  exact ⟨ev, rfl, hc⟩

theorem transport_after {α : Type} {ins p1 p2 : UInt8} {data : Bytes} (hd : data.length < 256) {f : Bytes → Option α}
    (d : Bytes) : ((transport ins p1 p2 data).process f).after [d ++ [0x90, 0x00]] =
      some ⟨0x9000, f (d ++ [0x90, 0x00])⟩ := by
  have hst : statusOf (d ++ [0x90, 0x00]) = 0x9000 := statusOf_append _ 0x90 0x00
  rw [← Client.bind_done ((transport ins p1 p2 data).process f),
    Client.after_transport hd (by simp) (by rw [hst]; simp), hst]
  rfl

/-- C88, addresses: `showAddressAndPubKey` returns the public key and the address that the user has read. -/
theorem C88_address (cfg : Config) (s : Dev) (hrun : s.running = true) (js : Js) (hjs : js.ReadsDecimal) (path : Bytes)
    (curve : UInt8) (k : PathAndCurve) (hk : NamesKey path curve k) :
    ∃ call, getAddress js true path curve = some call ∧ ∀ env ev, Sends call [ev] → env.cr.Works →
      ∀ key acc, IsAccount env.cr k key acc → ∀ env', env'.cr = env.cr →
      ∃ screens t, UserRead env.cr.hashes screens ("Address", .account acc) ∧ IsAddressOf env.cr k.curve key t ∧
        ReturnsAfterReading cfg s call [] env ev env' screens ⟨0x9000, some (key, t)⟩ := by
  obtain ⟨hp, hlen, hpl⟩ := hk.serialize hjs
  refine ⟨_, by unfold getAddress; rw [hp]; rfl, fun env ev hs hw key acc hacc env' hcr => ?_⟩
  obtain ⟨_, he, hc⟩ := transport_sends (by omega) hs
  cases he
  obtain ⟨screens, t, h1, h2, h3, -⟩ := C85_address cfg s hrun env hw ev 0x11 1 curve (.inr ⟨rfl, by decide⟩) _ hc k
    (hk.names (by decide)) key acc hacc env' hcr
  refine ⟨screens, t, h1, h2, h3.returns hs ?_⟩
  rw [transport_after (by omega), readAddress_reply (publicKey_short hw.sized hacc.derived)]

/-- C88, authorization: `authorizeBaking` returns the public key, and the key is authorized. -/
theorem C88_authorize (cfg : Config) (hb : cfg.build = .baking) (new : NewDevice)
    (hu : new.upload.length = uploadCapacity) (es : List (Env × Event)) (hes : ∀ e ∈ es, Kind e.1 e.2)
    (hlen : es.length + 1 < 2 ^ 64) (s : Dev) (hs : s = ((Dev.factory new).run cfg es).1) (hrun : s.running = true)
    (js : Js) (hjs : js.ReadsDecimal) (path : Bytes) (curve : UInt8) (k : PathAndCurve) (hk : NamesKey path curve k) :
    ∃ call, authorizeBaking js path curve = some call ∧ ∀ env ev, Sends call [ev] → env.cr.Works →
      ∀ key acc, IsAccount env.cr k key acc → ∀ env', env'.cr = env.cr → env'.keyF = .done →
      ∃ screens, (∀ e ∈ manageReview "Authorize Baking" acc, UserRead env.cr.hashes screens e) ∧
        ReturnsAfterReading cfg s call [] env ev env' screens ⟨0x9000, some key⟩ ∧
        (s.afterReading cfg env ev env' screens).relaunch.storedKey = some k := by
  obtain ⟨hp, hl, hpl⟩ := hk.serialize hjs
  refine ⟨_, by unfold authorizeBaking; rw [hp]; rfl, fun env ev hse hw key acc hacc env' hcr hf => ?_⟩
  obtain ⟨_, he, hc⟩ := transport_sends (by omega) hse
  cases he
  obtain ⟨screens, h1, h2, -, h3⟩ := C85_authorize cfg hb new hu es hes hlen s hs hrun env hw ev 0xa1 1 curve (by decide)
    (by decide) _ hc k (hk.names (by decide)) key acc hacc env' hcr hf
  refine ⟨screens, h1, h2.returns hse ?_, h3⟩
  rw [transport_after (by omega)]
  have hn : (UInt8.ofNat key.length).toNat = key.length := by
    have := publicKey_short hw.sized hacc.derived
    rw [UInt8.toNat_ofNat']; omega
  simp only [List.cons_append, List.getD_cons_zero, hn, slice, List.drop_succ_cons, List.drop_zero, List.take_left]

/-- C88, removal: `deauthorizeBaking` returns success, and no key is authorized. -/
theorem C88_deauthorize (cfg : Config) (hb : cfg.build = .baking) (new : NewDevice)
    (hu : new.upload.length = uploadCapacity) (es : List (Env × Event)) (hes : ∀ e ∈ es, Kind e.1 e.2)
    (hlen : es.length + 1 < 2 ^ 64) (s : Dev) (hs : s = ((Dev.factory new).run cfg es).1) (hrun : s.running = true)
    (k : PathAndCurve) (hk : s.storedKey = some k) (env : Env) (ev : Event) (hse : Sends deauthorizeBaking [ev])
    (hw : env.cr.Works) (key : Bytes) (acc : Account) (hacc : IsAccount env.cr k key acc) (env' : Env)
    (hcr : env'.cr = env.cr) (hf : env'.keyF = .done) :
    ∃ screens, (∀ e ∈ manageReview "DeAuthorize Baking" acc, UserRead env.cr.hashes screens e) ∧
      ReturnsAfterReading cfg s deauthorizeBaking [] env ev env' screens ⟨0x9000, some ()⟩ ∧
      (s.afterReading cfg env ev env' screens).relaunch.storedKey = none := by
  obtain ⟨_, he, hc⟩ := transport_sends (by simp) hse
  cases he
  obtain ⟨screens, h1, h2, -, h3⟩ := C85_deauthorize cfg hb new hu es hes hlen s hs hrun env hw ev 0xac 1 0 (by decide)
    (by decide) _ hc k hk key acc hacc env' hcr hf
  exact ⟨screens, h1, h2.returns hse (transport_after (by simp) []), h3⟩

/-- C88, query: `queryAuthKeyWithCurve` with confirmation returns the curve and the path of the authorized key. -/
theorem C88_query (cfg : Config) (hb : cfg.build = .baking) (s : Dev) (hrun : s.running = true) (k : PathAndCurve)
    (hk : s.storedKey = some k) (env : Env) (ev : Event) (hse : Sends (queryAuthKey true) [ev])
    (hw : env.cr.Works) (key : Bytes) (acc : Account) (hacc : IsAccount env.cr k key acc) (env' : Env)
    (hcr : env'.cr = env.cr) :
    ∃ screens, (∀ e ∈ manageReview "Query Authorized" acc, UserRead env.cr.hashes screens e) ∧
      ReturnsAfterReading cfg s (queryAuthKey true) [] env ev env' screens
        ⟨0x9000, some (curveCode k.curve, k.path.flatMap be32)⟩ := by
  obtain ⟨_, he, hc⟩ := transport_sends (by simp) hse
  cases he
  obtain ⟨screens, h1, h2, -⟩ := C85_query cfg hb s hrun env hw ev true 0xad 1 0 (by decide)
    (by decide) _ hc k hk key acc hacc env' hcr
  refine ⟨screens, h1, h2.returns hse ?_⟩
  unfold queryAuthKey
  rw [transport_after (by simp)]
  exact congrArg (fun b => some (Response.mk 0x9000 b)) (queryAuth_body (storedKey_short hk))

/-- C88, setup: `legacySetup` returns success, the key is authorized, and the levels and the chain id are set. -/
theorem C88_setup (cfg : Config) (hb : cfg.build = .baking) (new : NewDevice)
    (hu : new.upload.length = uploadCapacity) (es : List (Env × Event)) (hes : ∀ e ∈ es, Kind e.1 e.2)
    (hlen : es.length + 1 < 2 ^ 64) (s : Dev) (hs : s = ((Dev.factory new).run cfg es).1) (hrun : s.running = true)
    (js : Js) (hjs : js.ReadsDecimal) (path : Bytes) (curve : UInt8) (k : PathAndCurve) (hk : NamesKey path curve k)
    (main test chain : UInt32) :
    ∃ call, legacySetup js path curve main test chain = some call ∧ ∀ env ev, Sends call [ev] → env.cr.Works →
      ∀ key acc, IsAccount env.cr k key acc → ∀ env', env'.cr = env.cr →
      env'.keyF = .done ∧ env'.mainF = .done ∧ env'.testF = .done ∧ env'.chainF = .done →
      ∃ screens body, (∀ e ∈ setupReview acc chain main test, UserRead env.cr.hashes screens e) ∧
        ReturnsAfterReading cfg s call [] env ev env' screens ⟨0x9000, body⟩ ∧
        (s.afterReading cfg env ev env' screens).relaunch.storedKey = some k ∧
        Reports cfg (s.afterReading cfg env ev env' screens).relaunch main test chain := by
  obtain ⟨hp, hl, hpl⟩ := hk.serialize hjs
  have hd : (be32 chain ++ be32 main ++ be32 test ++ k.path.serialize).length < 256 := by
    simp only [List.length_append, be32_length]; omega
  refine ⟨_, by unfold legacySetup; rw [hp]; rfl, fun env ev hse hw key acc hacc env' hcr hf => ?_⟩
  obtain ⟨_, he, hc⟩ := transport_sends hd hse
  cases he
  rw [hk.curve] at hc
  obtain ⟨screens, h1, h2, h3⟩ := C85_setup cfg hb new hu es hes hlen s hs hrun env hw ev 0 k (by omega) chain main test []
    (by rw [List.append_nil]; exact hc) key acc hacc env' hcr hf
  exact ⟨screens, _, h1, h2.returns hse (transport_after hd _), h3 _ (.inr rfl)⟩

/-- C88, reset: `legacyResetHighWatermark` returns success for a level below `2 ^ 31`, and both watermarks are at this
level. -/
theorem C88_reset (cfg : Config) (hb : cfg.build = .baking) (new : NewDevice)
    (hu : new.upload.length = uploadCapacity) (es : List (Env × Event)) (hes : ∀ e ∈ es, Kind e.1 e.2)
    (hlen : es.length + 1 < 2 ^ 64) (s : Dev) (hs : s = ((Dev.factory new).run cfg es).1) (hrun : s.running = true)
    (level : Nat) (hlevel : level < 2 ^ 31) :
    ∃ call, legacyResetHighWatermark level = some call ∧ ∀ env ev, Sends call [ev] →
      env.mainF = .done ∧ env.testF = .done ∧ env.chainF = .done →
      Talk call (s.trace cfg [(env, ev)]) ⟨0x9000, some ()⟩ ∧
      ∃ ch, Reports cfg (s.step cfg env ev).1.relaunch (UInt32.ofNat level) (UInt32.ofNat level) ch := by
  have hlev : ((level : Int) % 0x100000000).toNat = level := by omega
  refine ⟨_, by unfold legacyResetHighWatermark; rw [if_pos (by omega), hlev], fun env ev hse hf => ?_⟩
  obtain ⟨_, he, hc⟩ := transport_sends (by simp [be32_length]) hse
  cases he
  obtain ⟨h1, ch, -, h2⟩ := C85_reset cfg hb new hu es hes hlen s hs hrun env hf ev 0 0 (UInt32.ofNat level) []
    (by rw [List.append_nil]; exact hc)
  refine ⟨Talk.at_once (us := []) hse (a := [0x90, 0x00]) (x := none) ?_ (transport_after (by simp [be32_length]) []), ch,
    h2 _ (.inr rfl)⟩
  simp only [List.nil_append, Dev.run, h1, List.map_nil]

/-! ### Concrete cases -/

/-- What a call sends while it is acknowledged. -/
def Client.sent {ρ : Type} : Client ρ → List (UInt8 × UInt8 × UInt8 × Bytes)
  | .done _ => []
  | .send ins p1 p2 data next => (ins, p1, p2, data) :: (next [0x90, 0x00]).sent

theorem Sends.of_sent {ρ : Type} {call : Client ρ} (h : ∀ x ∈ call.sent, x.2.2.2.length ≤ 255) :
    Sends call (call.sent.map fun x => Demo.apdu x.1 x.2.1 x.2.2.1 x.2.2.2) := by
  induction call with
  | done r => exact .done
  | send ins p1 p2 data next ih =>
    simp only [Client.sent, List.map_cons]
    exact .send (Demo.apdu_carries _ _ _ _ (h (ins, p1, p2, data) (by simp [Client.sent])))
      (ih _ fun x hx => h x (by simp [Client.sent, hx]))

namespace Demo

theorem key_named : NamesKey pathText 0 key :=
  ⟨rfl, _, pathText_is, .inl rfl, by simp, by decide⟩

/-- The call of the client for the signature of the delegation. -/
def delegationCall : Client SignResponse := signOperation js pathText 0 (delegation.drop 1)

theorem delegationCall_sent : delegationCall.sent = [(0x12, 0, 0, keyPath), (0x12, 2, 0, delegation)] := by
  decide +kernel

theorem delegationCall_calls : Calls delegationCall (ok [apdu 0x12 0 0 keyPath]) fine (apdu 0x12 2 0 delegation) where
  packets := by
    have := Sends.of_sent (call := delegationCall) (by rw [delegationCall_sent]; decide)
    rw [delegationCall_sent] at this
    exact this
  flash := by simp [ok, fine]
  last := ⟨rfl, rfl⟩

set_option maxRecDepth 100000 in
/-- `C88_operation` on the larger display. -/
example : ∃ screens sig, UserRead crypto.hashes screens ("Fee", .tez 1) ∧
    ReturnsAfterReading walletApp (Dev.factory newLarge) delegationCall (ok [apdu 0x12 0 0 keyPath]) fine
      (apdu 0x12 2 0 delegation) fine screens ⟨0x9000, some (hash 32 delegation, sig)⟩ := by
  have e : (0x03 : UInt8) :: delegation.drop 1 = delegation := by decide
  have e' := delegation_encode
  rw [← e, List.cons.injEq] at e'
  obtain ⟨screens, h1, h2⟩ := C88_operation walletApp newLarge (by decide +kernel) [] (by simp) _ rfl
    (by decide +kernel) js js_decimal pathText 0 key key_named (List.replicate 32 5) (by decide) [delegationOp]
    (by simpa using delegation_valid) [] (fun _ _ h => by cases h) (by decide +kernel) delegation_readable
    (delegation.drop 1) e'.2.symm (by decide) delegationCall (.inl rfl) _ fine _ delegationCall_calls crypto_works fine rfl
    _ _ rfl rfl
  rw [e] at h2
  exact ⟨screens, _, h1 _ (by simp [batchReview, delegationOp, Operation.review]), h2⟩

/-- The call of the client for the signature of a block. -/
def blockCall (l : UInt32) : Client SignResponse := legacySignWithHash js pathText 0 ((emmyBlock l).drop 1) .blocklevel

set_option maxRecDepth 100000 in
theorem blockCall_sent : (blockCall 8).sent = [(0x0f, 0, 0, keyPath), (0x0f, 0x81, 0, emmyBlock 8)] := by
  decide +kernel

set_option maxRecDepth 100000 in
/-- `C88_consensus` after a setup, for a block at level 8. -/
example : ∃ sig, Talk (blockCall 8) (((Dev.factory newSmall).run bakingApp (setup 5)).1.trace bakingApp
    (ok [apdu 0x0F 0 0 keyPath] ++ [(fine, apdu 0x0F 0x81 0 (emmyBlock 8))]))
      ⟨0x9000, some (hash 32 (emmyBlock 8), sig)⟩ := by
  have e : (0x01 : UInt8) :: (emmyBlock 8).drop 1 = emmyBlock 8 := by decide
  have hc : Calls (blockCall 8) (ok [apdu 0x0F 0 0 keyPath]) fine (apdu 0x0F 0x81 0 (emmyBlock 8)) := by
    refine ⟨?_, by simp [ok, fine], rfl, rfl⟩
    have := Sends.of_sent (call := blockCall 8) (by rw [blockCall_sent]; decide)
    rw [blockCall_sent] at this
    exact this
  have hr : Ready ((Dev.factory newSmall).run bakingApp (setup 5)).1 key ((0x01 : UInt8) :: (emmyBlock 8).drop 1)
      ⟨0, 8, 0, 0⟩ := by
    rw [e]
    have hread : ∃ b, ((Dev.factory newSmall).run bakingApp (setup 5)).1.main.read = .ok b ∧
        b = hwmBytes 5 := ⟨_, by decide +kernel, rfl⟩
    obtain ⟨b, hb, rfl⟩ := hread
    exact ⟨by decide +kernel, by decide +kernel, by decide +kernel, by decide, _, hb, by decide +kernel⟩
  obtain ⟨-, h⟩ := C88_consensus bakingApp rfl newSmall (by decide +kernel) (setup 5) (by decide +kernel) _ rfl js js_decimal
    pathText 0 key key_named 0x01 ((emmyBlock 8).drop 1) ⟨0, 8, 0, 0⟩ hr (by decide)
  have h := h (blockCall 8) .legacyBlock _ fine _ hc crypto_sized rfl _ _ rfl rfl
  rw [e] at h
  exact ⟨_, h⟩

set_option maxRecDepth 100000 in
/-- The packets of the other calls. -/
example : (authorizeBaking js pathText 0).map Client.sent = some [(0xa1, 1, 0, keyPath)] ∧
    (getAddress js true pathText 0).map Client.sent = some [(0x11, 1, 0, keyPath)] ∧
    deauthorizeBaking.sent = [(0xac, 1, 0, [])] ∧ (queryAuthKey true).sent = [(0xad, 1, 0, [])] ∧
    (legacySetup js pathText 0 5 6 7).map Client.sent =
      some [(0x0a, 0, 0, be32 7 ++ be32 5 ++ be32 6 ++ keyPath)] ∧
    (legacyResetHighWatermark 9).map Client.sent = some [(0x06, 0, 0, be32 9)] ∧
    (signMichelson js pathText 0 [1, 2]).sent = [(0x12, 0, 0, keyPath), (0x12, 2, 0, [5, 1, 2])] ∧
    (signBaker js pathText 0 (delegation.drop 1) .delegation).map Client.sent =
      some [(0xaf, 0, 0, keyPath), (0xaf, 2, 0, delegation)] := by
  refine ⟨?_, ?_, ?_, ?_, ?_, ?_, ?_, ?_⟩ <;> decide +kernel

set_option maxRecDepth 100000 in
/-- `C88_authorize` after a setup. -/
example : ∃ call, authorizeBaking js pathText 0 = some call ∧ ∃ screens key',
    ReturnsAfterReading bakingApp ((Dev.factory newLarge).run bakingApp (setup 5)).1 call [] fine (apdu 0xa1 1 0 keyPath)
      fine screens ⟨0x9000, some key'⟩ := by
  obtain ⟨call, h1, h2⟩ := C88_authorize bakingApp rfl newLarge (by decide +kernel) (setup 5) (setup_kind 5) (by decide)
    _ rfl (by decide +kernel) js js_decimal pathText 0 key key_named
  have hs : call.sent = [(0xa1, 1, 0, keyPath)] := by
    have : (authorizeBaking js pathText 0).map Client.sent = some [(0xa1, 1, 0, keyPath)] := by decide +kernel
    rw [h1] at this
    exact Option.some.inj this
  have hse := Sends.of_sent (call := call) (by rw [hs]; decide)
  rw [hs] at hse
  obtain ⟨screens, -, h3, -⟩ := h2 fine _ hse crypto_works _ _ key_account fine rfl rfl
  exact ⟨call, h1, screens, _, h3⟩

end Demo

end Tezos
