import Verif.Props.Devel
import Verif.Props.WalkX
/-
Blind signing in the development build.
-/
set_option linter.unusedSimpArgs false
namespace Tezos
open Spec (Session Packet feed acks role uploadCapacity)

/-! ### Uploads in the development build -/

/-- The command family an instruction code of the development build uploads for. -/
def develFamily (b : Build) (ins : UInt8) : Option Accessor :=
  if ins = 0xF0 then some .sha256 else if ins = 0xF3 then some .blindSign else familyOf b ins

/-- The packet that an event carries. -/
def Event.develPacket (b : Build) : Event → Option (Packet Accessor)
  | .apdu buf rx =>
    if 5 ≤ rx ∧ rx ≤ buf.length ∧ buf[0]? = some 0x80 then
      (buf[1]?.bind (develFamily b)).map fun f =>
        ⟨f, buf.getD 2 0, buf.getD 3 0, slice buf 5 (buf.getD 4 0).toNat⟩
    else none
  | _ => none

/-- The event is a request with an instruction that neither the app nor the development build knows. -/
def Event.Unknown (b : Build) : Event → Prop
  | .apdu buf rx => 5 ≤ rx ∧ rx ≤ buf.length ∧ buf[0]? = some 0x80 ∧
      ∃ ins, buf[1]? = some ins ∧ ins ∉ documentedCodes b ∧ ins ∉ [0xF0, 0xF1, 0xF2, 0xF3]
  | _ => False

instance (b : Build) (ev : Event) : Decidable (ev.Unknown b) := by
  cases ev with
  | apdu buf rx =>
    unfold Event.Unknown
    cases h : buf[1]? with
    | none => exact isFalse (by simp [h])
    | some ins =>
      exact decidable_of_iff (5 ≤ rx ∧ rx ≤ buf.length ∧ buf[0]? = some 0x80 ∧ ins ∉ documentedCodes b ∧
        ins ∉ [0xF0, 0xF1, 0xF2, 0xF3]) (by simp only [h, Option.some.injEq, exists_eq_left'])
  | _ => exact isFalse (by simp [Event.Unknown])

/-- The upload session after an event, as the host sees it: packets change it while the app runs; starting the app ends
it, and so does a request that the app does not know. -/
def develSessionStep (cfg : Config) (s : Option (Session Accessor)) (m : DMoment) : Option (Session Accessor) :=
  if m.ev = .relaunch then none
  else if m.st.app.running then
    match m.ev.develPacket cfg.build with
    | some k => (feed s k).1
    | none => if m.ev.Unknown cfg.build then none else s
  else s

/-- The open upload session after a history. -/
def develSessionIn (cfg : Config) (past : List DMoment) : Option (Session Accessor) :=
  past.foldl (develSessionStep cfg) none

/-- The session agrees with the upload buffer. -/
structure DUplInv (u : Upl) (s : Option (Session Accessor)) : Prop where
  wf : u.buf.WF
  ramLen : u.buf.ram.length = 0xFF
  flashLen : u.buf.flash.length = uploadCapacity
  session : match s with
    | none => u.lock = none ∨ u.lock = some .debug
    | some s => s.family ≠ .debug ∧ u.lock = some s.family ∧ u.buf.readExact = s.p2 :: (s.first ++ s.rest) ∧
        u.initLen = s.first.length

theorem UplInv.devel {u : Upl} {s : Option (Session Accessor)} (h : UplInv u s)
    (hf : ∀ x, s = some x → x.family ≠ .debug) : DUplInv u s := by
  refine ⟨h.wf, h.ramLen, h.flashLen, ?_⟩
  have := h.session
  cases s with
  | none => exact .inl this
  | some x => exact ⟨hf x rfl, this⟩

theorem DUplInv.devel {u : Upl} {s : Option (Session Accessor)} (h : DUplInv u s) (hd : u.lock ≠ some .debug) :
    UplInv u s := by
  refine ⟨h.wf, h.ramLen, h.flashLen, ?_⟩
  have := h.session
  cases s with
  | none => exact this.resolve_right hd
  | some x => exact this.2

theorem feed_family {s : Option (Session Accessor)} {k : Packet Accessor} (hk : k.family ≠ .debug)
    (hs : ∀ x, s = some x → x.family ≠ .debug) : ∀ x, (feed s k).1 = some x → x.family ≠ .debug := by
  intro x hx
  unfold feed at hx
  split at hx
  · cases hx; exact hk
  · split at hx
    · rename_i y _ _
      cases hx
      exact hs y rfl
    · exact hs x hx
  · split at hx
    · cases hx
    · exact hs x hx
  · exact hs x hx

/-- A packet in the development build. -/
theorem Upl.upload_devel {u : Upl} {s : Option (Session Accessor)} (h : DUplInv u s) (k : Packet Accessor)
    (hp : k.payload.length ≤ 255) (hk : k.family ≠ .debug) :
    let r := u.upload .done .done k.family k.p1 k.p2 (some k.payload)
    DUplInv (Upl.released k.family r) (feed s k).1 ∧
      ∀ q2 first data ref, r.2 = .complete q2 first data ref → (feed s k).2 = some (q2, first, data) := by
  have hs : ∀ x, s = some x → x.family ≠ .debug := by
    rintro x rfl
    exact h.session.1
  have main : ∀ u', UplInv u' s →
      let r := u'.upload .done .done k.family k.p1 k.p2 (some k.payload)
      DUplInv (Upl.released k.family r) (feed s k).1 ∧
        ∀ q2 first data ref, r.2 = .complete q2 first data ref → (feed s k).2 = some (q2, first, data) := by
    intro u' hu r
    have hf := Upl.upload_fed hu k hp
    refine ⟨(Upl.released_fed hf).devel (feed_family hk hs), fun q2 first data ref hr => ?_⟩
    cases hx : (feed s k).2 with
    | none =>
      obtain ⟨h1, _⟩ := hf.none hx
      split at h1
      · rw [hr] at h1; cases h1
      · obtain ⟨e, h1, _⟩ := h1
        rw [hr] at h1; cases h1
    | some x =>
      obtain ⟨a, b, c⟩ := x
      obtain ⟨r', h1, _⟩ := hf.some a b c hx
      rw [hr] at h1
      cases h1
      rfl
  by_cases hl : u.lock = some .debug
  case neg => exact main u (h.devel hl)
  have hs' : s = none := by
    cases s with
    | none => rfl
    | some x =>
      have := h.session.2.1
      rw [hl] at this
      exact absurd (by simpa using this.symm) h.session.1
  subst hs'
  have hr := tryEither_role k.p1
  have hacq : lockAcquire u.lock k.family = .error .busy := by
    simp only [lockAcquire, hl]
    rw [if_neg (fun e => hk e.symm)]
  cases hrole : role k.p1 with
  | none =>
    rw [hrole] at hr
    simp only at hr
    have hf : feed none k = (none, none) := by unfold feed; rw [hrole]
    simp only [Upl.upload, hr, Upl.released, hf]
    exact ⟨h, by simp⟩
  | some ro =>
    rw [hrole] at hr
    cases ro with
    | opening =>
      obtain ⟨t, ht, hi⟩ := hr
      have he : u.upload .done .done k.family k.p1 k.p2 (some k.payload) =
          ({ u with lock := none } : Upl).upload .done .done k.family k.p1 k.p2 (some k.payload) := by
        simp only [Upl.upload, ht, hi, if_true, lockLock]
      rw [he]
      exact main _ ⟨h.wf, h.ramLen, h.flashLen, rfl⟩
    | middle =>
      obtain ⟨t, ht, hi, hn⟩ := hr
      have hf : feed none k = (none, none) := by unfold feed; rw [hrole]
      simp only [Upl.upload, ht, hi, hn, hacq, if_true, Bool.false_eq_true, if_false, Upl.released, hf]
      exact ⟨h, by simp⟩
    | closing =>
      obtain ⟨t, ht, hi, hn, hla⟩ := hr
      have hf : feed none k = (none, none) := by unfold feed; rw [hrole]
      simp only [Upl.upload, ht, hi, hn, hla, hacq, if_true, Bool.false_eq_true, if_false, Upl.released, hf]
      exact ⟨h, by simp⟩

theorem DUplInv.dropDebug {u : Upl} {s : Option (Session Accessor)} (h : DUplInv u s) : DUplInv (u.drop .debug) s := by
  unfold Upl.drop
  split
  case h_2 => exact h
  rename_i ha
  have hl : u.lock = some .debug := by
    unfold lockAcquire at ha
    split at ha
    · rename_i b hb
      split at ha
      · rename_i hbb; rw [hb, hbb]
      · cases ha
    · cases ha
  refine ⟨h.wf.reset, h.ramLen, h.flashLen, ?_⟩
  cases s with
  | none => exact .inl (by simp [lockRelease, hl])
  | some x =>
    have := h.session.2.1
    rw [hl] at this
    exact absurd (by simpa using this.symm) h.session.1

/-! ### What an event does to the buffer -/

theorem DView.reject_upl (v : DView) (s : DDev) :
    (v.reject s).app.upl = s.app.upl ∨ (v.reject s).app.upl = s.app.upl.drop .debug := by
  cases v <;> first | exact .inl rfl | exact .inr rfl

theorem DView.accept_upl (env : Env) (v : DView) (s : DDev) :
    (v.accept env s).st.app.upl = s.app.upl ∨ (v.accept env s).st.app.upl = s.app.upl.drop .debug := by
  cases v with
  | blind d m =>
    left
    unfold DView.accept
    dsimp only
    repeat' split
    all_goals rfl
  | debug => exact .inr rfl
  | echo => exact .inl rfl

theorem DRes.deliver_upl (r : DRes) : r.deliver.1.app.upl = r.st.app.upl := by
  unfold DRes.deliver
  split <;> rfl

theorem DDev.show_upl (v : DView) (s : DDev) :
    (s.show v).st.app.upl = s.app.upl ∨ (s.show v).st.app.upl = s.app.upl.drop .debug := by
  unfold DDev.show
  dsimp only
  split
  case h_3 => exact v.reject_upl _
  all_goals exact .inl rfl

theorem DDev.redraw_upl (v : Option DView) (u : Upd) (s : DDev) :
    (s.redraw v u).1.app.upl = s.app.upl ∨ (s.redraw v u).1.app.upl = s.app.upl.drop .debug := by
  cases u with
  | rejected z =>
    cases v with
    | none => exact .inl rfl
    | some v => exact v.reject_upl _
  | _ => exact .inl rfl

theorem DDev.choose_upl (env : Env) (v : DView) (s : DDev) :
    (s.choose env v).1.app.upl = s.app.upl ∨ (s.choose env v).1.app.upl = s.app.upl.drop .debug := by
  unfold DDev.choose
  split
  · unfold DDev.approve
    dsimp only
    rw [DRes.deliver_upl]
    exact v.accept_upl env _
  · exact v.reject_upl _
  · exact .inl rfl

theorem DDev.button_session {env : Env} {v : DView} {ev : Event} {s : DDev} {o : Option (Session Accessor)}
    (h : DUplInv s.app.upl o) : DUplInv (s.button env v ev).1.app.upl o := by
  have hr : ∀ (t : DDev) w u, DUplInv t.app.upl o → DUplInv (t.redraw w u).1.app.upl o := by
    intro t w u ht
    rcases t.redraw_upl w u with e | e <;> rw [e]
    · exact ht
    · exact ht.dropDebug
  have he : ∀ c f, DUplInv (s.onError c f).1.app.upl o := by
    intro c f
    unfold DDev.onError
    split <;> exact h
  unfold DDev.button
  split
  · exact hr _ _ _ h
  · exact hr _ _ _ h
  · have hc : DUplInv (s.choose env v).1.app.upl o := by
      rcases s.choose_upl env v with e | e <;> rw [e]
      · exact h
      · exact h.dropDebug
    unfold DDev.pressBoth
    dsimp only
    split
    · exact hr _ _ _ hc
    · exact hc
  · exact he _ _
  · exact he _ _
  · exact he _ _
  · exact h

theorem DDev.cmdUpload_upl {env : Env} {acc : Accessor} {p1 p2 : UInt8} {payload : Option Bytes}
    {finish : UInt8 → Bytes → Bytes → DDev → DRes} {s : DDev}
    (hf : ∀ q2 first data s, (finish q2 first data s).st.app.upl = s.app.upl) :
    (s.cmdUpload env acc p1 p2 payload finish).st.app.upl =
      Upl.released acc (s.app.upl.upload env.copyF env.appendF acc p1 p2 payload) := by
  unfold DDev.cmdUpload Upl.released
  cases s.app.upl.upload env.copyF env.appendF acc p1 p2 payload with
  | mk u r => cases r <;> first | rfl | simp only [hf]

theorem DDev.blindSign_upl (env : Env) (p2 : UInt8) (first data : Bytes) (s : DDev) :
    (s.blindSign env p2 first data).st.app.upl = s.app.upl := by
  unfold DDev.blindSign
  repeat' split
  all_goals try rfl
  unfold DDev.show
  dsimp only
  split <;> rfl

theorem DDev.cmdHash_upl {env : Env} {n : Nat} {p1 p2 : UInt8} {payload : Option Bytes} {s : DDev} :
    (s.cmdHash env n p1 p2 payload).st.app.upl =
      Upl.released .sha256 (s.app.upl.upload env.copyF env.appendF .sha256 p1 p2 payload) := by
  refine DDev.cmdUpload_upl fun q2 first data s => ?_
  repeat' split
  all_goals rfl

theorem SwapBuf.write_keeps {b : SwapBuf} (h : b.WF) (fc fa : WriteFate) (bs : Bytes) :
    (b.write fc fa bs).1.WF ∧ (b.write fc fa bs).1.ram.length = b.ram.length ∧
      (b.write fc fa bs).1.flash.length = b.flash.length :=
  let w := SwapBuf.write_spec h fc fa bs
  ⟨w.wf, w.ramLen, w.flashLen⟩

/-- A request that is not known takes the buffer over. -/
theorem DDev.cmdDebug_session {env : Env} {header p : Bytes} {s : DDev} {o : Option (Session Accessor)}
    (h : DUplInv s.app.upl o) : DUplInv (s.cmdDebug env header (some p)).st.app.upl none := by
  unfold DDev.cmdDebug
  simp only [lockLock]
  obtain ⟨w1, w2, w3⟩ := SwapBuf.write_keeps h.wf env.copyF env.appendF (header ++ [UInt8.ofNat p.length])
  have h1 : DUplInv ⟨some .debug, (s.app.upl.buf.write env.copyF env.appendF (header ++ [UInt8.ofNat p.length])).1,
      s.app.upl.initLen⟩ none :=
    ⟨w1, w2.trans h.ramLen, w3.trans h.flashLen, .inr rfl⟩
  obtain ⟨x1, x2, x3⟩ := SwapBuf.write_keeps w1 env.copyF env.appendF p
  have h2 : DUplInv ⟨some .debug, ((s.app.upl.buf.write env.copyF env.appendF
      (header ++ [UInt8.ofNat p.length])).1.write env.copyF env.appendF p).1, s.app.upl.initLen⟩ none :=
    ⟨x1, (x2.trans w2).trans h.ramLen, (x3.trans w3).trans h.flashLen, .inr rfl⟩
  split
  · exact h1
  · exact h1
  · exact h1
  · split
    · exact h2
    · exact h2
    · exact h2
    · rcases DDev.show_upl .debug _ with e | e
      · rw [e]; exact h2
      · rw [e]; exact h2.dropDebug

/-! ### The session along a history -/

theorem develFamily_ne_debug {b : Build} {ins : UInt8} {f : Accessor} (h : develFamily b ins = some f) : f ≠ .debug := by
  have : ∀ i, develFamily b i ≠ some .debug := by
    apply forall_u8
    cases b <;> decide +kernel
  rintro rfl
  exact this ins h

theorem develFamily_none {b : Build} {ins : UInt8} (h : develCommand b ins = none) : develFamily b ins = familyOf b ins := by
  have : ∀ i, develCommand b i = none → develFamily b i = familyOf b i := by
    apply forall_u8
    cases b <;> decide +kernel
  exact this ins h

/-- The accessor a command uploads with. -/
def DCmd.accessor : DCmd → Option Accessor
  | .hash => some .sha256
  | .blindSign => some .blindSign
  | _ => none

theorem develFamily_cmd {b : Build} {ins : UInt8} {c : DCmd} (h : develCommand b ins = some c) :
    develFamily b ins = c.accessor := by
  have : ∀ i, ∀ c ∈ [DCmd.hash, .except, .echo, .blindSign, .debug], develCommand b i = some c → develFamily b i = c.accessor := by
    apply forall_u8
    cases b <;> decide +kernel
  exact this ins c (by cases c <;> simp) h

theorem develCommand_debug {b : Build} {ins : UInt8} :
    develCommand b ins = some .debug ↔ ins ∉ documentedCodes b ∧ ins ∉ [0xF0, 0xF1, 0xF2, 0xF3] := by
  revert ins
  apply forall_u8
  cases b <;> decide +kernel

/-- The request of an event. -/
structure DReceived (cfg : Config) (s : DDev) (buf : Bytes) (rx : Nat) (ins : UInt8) (c : DCmd) : Prop where
  running : s.app.running = true
  len : 5 ≤ rx ∧ rx ≤ buf.length
  cla : buf[0]? = some 0x80
  code : buf[1]? = some ins
  cmd : develCommand cfg.build ins = some c

theorem DReceived.step {cfg : Config} {s : DDev} {buf : Bytes} {rx : Nat} {ins : UInt8} {c : DCmd}
    (h : DReceived cfg s buf rx ins c) (env : Env) :
    s.step cfg env (.apdu buf rx) = (s.exec env c buf).deliver := by
  obtain ⟨h1, h2, h3, h4, h5⟩ := h
  simp only [DDev.step, h1, if_true, DDev.dispatch]
  rw [if_neg (by omega), if_neg (by rw [List.getD_eq_getElem?_getD, h3]; simp)]
  rw [List.getD_eq_getElem?_getD, h4]
  simp only [Option.getD_some, h5]

/-- A request is one of the app, or one of the development build. -/
theorem DDev.apdu_cases (cfg : Config) (env : Env) (buf : Bytes) (rx : Nat) (s : DDev) (hrun : s.app.running = true) :
    (s.step cfg env (.apdu buf rx) = (s.ofApp (s.app.dispatch cfg env buf rx)).deliver ∧
      (Event.apdu buf rx).develPacket cfg.build = (Event.apdu buf rx).packet cfg.build ∧
      ¬ (Event.apdu buf rx).Unknown cfg.build) ∨
    ∃ ins c, DReceived cfg s buf rx ins c := by
  by_cases h1 : buf.length < 5 ∨ rx < 5 ∨ buf.length < rx
  · left
    refine ⟨?_, ?_, fun h => ?_⟩
    · simp only [DDev.step, hrun, if_true, DDev.dispatch, Dev.dispatch, if_pos h1]
      rfl
    · simp only [Event.develPacket, Event.packet]
      rw [if_neg (by omega), if_neg (by omega)]
    · simp only [Event.Unknown] at h
      omega
  by_cases h2 : buf.getD 0 0 ≠ 0x80
  · have h3 : buf[0]? ≠ some 0x80 := by
      intro h
      rw [List.getD_eq_getElem?_getD, h] at h2
      exact h2 rfl
    left
    refine ⟨?_, ?_, fun h => h3 h.2.2.1⟩
    · simp only [DDev.step, hrun, if_true, DDev.dispatch, Dev.dispatch, if_neg h1, if_pos h2]
      rfl
    · simp only [Event.develPacket, Event.packet]
      rw [if_neg (fun h => h3 h.2.2), if_neg (fun h => h3 h.2.2)]
  have hget : ∀ i, i < 5 → buf[i]? = some (buf.getD i 0) := by
    intro i hi
    rw [List.getD_eq_getElem?_getD, List.getElem?_eq_getElem (by omega)]
    rfl
  have h3 : buf[0]? = some 0x80 := by rw [hget 0 (by omega)]; simpa using h2
  have h4 := hget 1 (by omega)
  cases hc : develCommand cfg.build (buf.getD 1 0) with
  | some c => exact .inr ⟨_, c, hrun, by omega, h3, h4, hc⟩
  | none =>
    left
    refine ⟨?_, ?_, ?_⟩
    · simp only [DDev.step, hrun, if_true, DDev.dispatch, if_neg h1, if_neg h2, hc]
    · simp only [Event.develPacket, Event.packet, h4, Option.bind_some, develFamily_none hc]
    · rintro ⟨-, -, -, ins, hi, h5⟩
      rw [h4] at hi
      cases hi
      rw [← develCommand_debug, hc] at h5
      cases h5

theorem DReceived.packet {cfg : Config} {s : DDev} {buf : Bytes} {rx : Nat} {ins : UInt8} {c : DCmd}
    (h : DReceived cfg s buf rx ins c) : (Event.apdu buf rx).develPacket cfg.build =
      c.accessor.map fun f =>
        ⟨f, buf.getD 2 0, buf.getD 3 0, slice buf 5 (buf.getD 4 0).toNat⟩ := by
  simp only [Event.develPacket]
  rw [if_pos ⟨h.len.1, h.len.2, h.cla⟩, h.code, Option.bind_some, develFamily_cmd h.cmd]

theorem DReceived.unknown {cfg : Config} {s : DDev} {buf : Bytes} {rx : Nat} {ins : UInt8} {c : DCmd}
    (h : DReceived cfg s buf rx ins c) : (Event.apdu buf rx).Unknown cfg.build ↔ c = .debug := by
  constructor
  · rintro ⟨-, -, -, i, hi, h5⟩
    rw [h.code] at hi
    cases hi
    rw [← develCommand_debug, h.cmd] at h5
    simpa using h5
  · rintro rfl
    exact ⟨h.len.1, h.len.2, h.cla, ins, h.code, develCommand_debug.mp h.cmd⟩

theorem payload_length_le (buf : Bytes) : (slice buf 5 (buf.getD 4 0).toNat).length ≤ 255 := by
  have := slice_length_le buf 5 (buf.getD 4 0).toNat
  have := (buf.getD 4 0).toNat_lt
  omega

theorem Event.packet_devel {b : Build} {ev : Event} {k : Packet Accessor} (h : ev.packet b = some k) :
    k.family ≠ .blindSign ∧ k.family ≠ .sha256 := by
  cases ev with
  | apdu buf rx =>
    simp only [Event.packet] at h
    split at h
    · cases hb : buf[1]? with
      | none => rw [hb] at h; cases h
      | some ins =>
        rw [hb, Option.bind_some] at h
        have hf : ∀ ins : UInt8, familyOf b ins ≠ some .blindSign ∧ familyOf b ins ≠ some .sha256 := by
          apply forall_u8
          cases b <;> decide +kernel
        cases hx : familyOf b ins with
        | none => rw [hx] at h; cases h
        | some f =>
          rw [hx] at h
          cases h
          exact ⟨fun e => (hf ins).1 (by rw [hx]; exact congrArg some e),
            fun e => (hf ins).2 (by rw [hx]; exact congrArg some e)⟩
    · cases h
  | _ => cases h

theorem Event.packet_family {b : Build} {ev : Event} {k : Packet Accessor} (h : ev.packet b = some k) :
    k.family ≠ .debug := by
  cases ev with
  | apdu buf rx =>
    simp only [Event.packet] at h
    split at h
    · simp only [Option.map_eq_some_iff] at h
      obtain ⟨f, hf, rfl⟩ := h
      cases hi : buf[1]? with
      | none => rw [hi] at hf; cases hf
      | some i =>
        rw [hi] at hf
        have : ∀ i, familyOf b i ≠ some .debug := by
          apply forall_u8
          cases b <;> decide +kernel
        rintro rfl
        exact this i hf
    · cases h
  | _ => cases h

/-- The session of the host agrees with the upload buffer. -/
theorem DDev.step_session {cfg : Config} {env : Env} {ev : Event} {s : DDev} {o : Option (Session Accessor)}
    (hg : Good env ev) (h : DUplInv s.app.upl o) (out : Output) :
    DUplInv (s.step cfg env ev).1.app.upl (develSessionStep cfg o ⟨s, env, ev, out⟩) := by
  unfold develSessionStep
  dsimp only
  have happ : ∀ u, u = (s.app.step cfg env ev).1.upl → ev ≠ .relaunch →
      ev.develPacket cfg.build = ev.packet cfg.build → ¬ ev.Unknown cfg.build → DUplInv u
        (if s.app.running = true then
          match ev.develPacket cfg.build with
          | some k => (feed o k).1
          | none => if ev.Unknown cfg.build then none else o
        else o) := by
    rintro u rfl hn hp hu
    rw [Dev.step_upl _ _ _ hg.full, if_neg hn, hp, if_neg hu]
    split
    · cases hpk : ev.packet cfg.build with
      | none => exact h
      | some k =>
        simp only [hg.copy, hg.append]
        exact (Upl.upload_devel h k (Event.packet_length hpk) (Event.packet_family hpk)).1
    · exact h
  cases ev with
  | relaunch => exact (UplInv.init h.flashLen).devel (by simp)
  | expert => rw [if_neg (by simp)]; exact happ _ rfl (by simp) rfl (by simp [Event.Unknown])
  | apdu buf rx =>
    rw [if_neg (by simp)]
    by_cases hrun : s.app.running = true
    case neg =>
      rw [if_neg hrun]
      simpa [DDev.step, hrun] using h
    rcases s.apdu_cases cfg env buf rx hrun with ⟨hs, hp, hu⟩ | ⟨ins, c, hrec⟩
    · refine happ _ ?_ (by simp) hp hu
      rw [hs, (s.ofApp_deliver _).1]
      simp only [Dev.step, hrun, if_true]
    · rw [if_pos hrun, hrec.step, DRes.deliver_upl, hrec.packet]
      have hpl := apduPayload_full hg.full
      have hup : ∀ acc : Accessor, acc ≠ .debug →
          DUplInv (Upl.released acc (s.app.upl.upload env.copyF env.appendF acc (buf.getD 2 0) (buf.getD 3 0)
            (some (slice buf 5 (buf.getD 4 0).toNat))))
            (feed o ⟨acc, buf.getD 2 0, buf.getD 3 0, slice buf 5 (buf.getD 4 0).toNat⟩).1 := by
        intro acc ha
        rw [hg.copy, hg.append]
        exact (Upl.upload_devel h ⟨acc, _, _, _⟩ (payload_length_le buf) ha).1
      have hun : ∀ {α : Type} (a b : α), c ≠ .debug → (if (Event.apdu buf rx).Unknown cfg.build then a else b) = b := by
        intro α a b hc
        rw [if_neg (fun h => hc (hrec.unknown.mp h))]
      cases c with
      | hash =>
        simp only [DDev.exec, hpl]
        rw [DDev.cmdHash_upl]
        exact hup _ (by simp)
      | blindSign =>
        simp only [DDev.exec, hpl]
        rw [DDev.cmdUpload_upl (fun p2 first data s => s.blindSign_upl env p2 first data)]
        exact hup _ (by simp)
      | except =>
        simp only [DDev.exec, DDev.cmdExcept, DCmd.accessor, Option.map_none]
        rw [hun _ _ (by simp)]
        split <;> exact h
      | echo =>
        simp only [DDev.exec, DDev.cmdEcho, hpl, DCmd.accessor, Option.map_none]
        rw [hun _ _ (by simp)]
        split
        · exact h
        · split
          · exact h
          · unfold DDev.show
            dsimp only
            split <;> exact h
      | debug =>
        simp only [DDev.exec, hpl, DCmd.accessor, Option.map_none]
        rw [if_pos (hrec.unknown.mpr rfl)]
        exact DDev.cmdDebug_session h
  | left | right | both =>
    rw [if_neg (by simp)]
    cases hr : s.review with
    | none =>
      have := happ (s.app.step cfg env _).1.upl rfl (by simp) rfl (by simp [Event.Unknown])
      simp only [DDev.step, hr]
      exact this
    | some v =>
      simp only [DDev.step, hr, Event.develPacket, Event.Unknown, if_false]
      split
      · exact DDev.button_session h
      · exact h

theorem DDev.trace_session {cfg : Config} {s : DDev} {es : List (Env × Event)} {o : Option (Session Accessor)}
    (hg : ∀ e ∈ es, Good e.1 e.2) (h : DUplInv s.app.upl o) :
    DUplInv (s.run cfg es).1.app.upl ((s.trace cfg es).foldl (develSessionStep cfg) o) := by
  induction es generalizing s o with
  | nil => exact h
  | cons x xs ih => exact ih (fun e he => hg e (by simp [he])) (DDev.step_session (hg x (by simp)) h _)

theorem devel_session {cfg : Config} {new : NewDevice} (hu : new.upload.length = uploadCapacity)
    {es : List (Env × Event)} (hg : ∀ e ∈ es, Good e.1 e.2) :
    DUplInv ((DDev.factory new).run cfg es).1.app.upl (develSessionIn cfg ((DDev.factory new).trace cfg es)) :=
  DDev.trace_session hg ((UplInv.init hu).devel (by simp))

/-! ### Where a review of a digest comes from -/

/-- The request opens the review of `digest`, of the message `msg`, for the key `path` on `curve`. -/
structure DDev.Opens (env : Env) (s : DDev) (buf : Bytes) (digest msg : Bytes) (path : Path) (curve : Curve) : Prop where
  upload : ∃ q2 first ref, (s.app.upl.upload env.copyF env.appendF .blindSign (buf.getD 2 0) (buf.getD 3 0)
      (apduPayload buf)).2 = .complete q2 first msg ref ∧ Curve.ofByte q2 = some curve ∧
      Path.read bip32MaxLength first = .ok path
  digest : env.cr.blake2b 32 msg = some digest

theorem DDev.show_review (v : DView) (s : DDev) :
    ((s.show v).st.review = some v ∨ (s.show v).st.review = none) ∧
      ((s.show v).st.review = some v → (s.show v).st.path = s.path) := by
  unfold DDev.show
  dsimp only
  split
  case h_3 => exact ⟨.inr rfl, fun h => by cases h⟩
  all_goals exact ⟨.inl rfl, fun _ => rfl⟩

/-- What a blind signing request leaves pending. -/
theorem DDev.blindSign_review {env : Env} (hh : ∀ m, env.cr.blake2b 32 m ≠ none) (p2 : UInt8) (first data : Bytes)
    (s : DDev) :
    ((s.blindSign env p2 first data).st.review = s.review ∧ (s.blindSign env p2 first data).st.path = s.path) ∨
    ∃ curve path digest, Curve.ofByte p2 = some curve ∧ Path.read bip32MaxLength first = .ok path ∧
      env.cr.blake2b 32 data = some digest ∧
      ((s.blindSign env p2 first data).st.review = some (.blind digest data) ∧
        (s.blindSign env p2 first data).st.path = some (path, curve) ∨
       (s.blindSign env p2 first data).st.review = none) := by
  unfold DDev.blindSign
  split
  · exact .inl ⟨rfl, rfl⟩
  · rename_i curve hc
    split
    · exact .inl ⟨rfl, rfl⟩
    · rename_i path hp
      right
      cases hd : env.cr.blake2b 32 data with
      | none => exact absurd hd (hh _)
      | some digest =>
        refine ⟨curve, path, digest, hc, hp, rfl, ?_⟩
        dsimp only
        rcases (DDev.show_review (.blind digest data) { s with path := some (path, curve) }) with ⟨h | h, h2⟩
        · exact .inl ⟨h, h2 h⟩
        · exact .inr h

theorem DRes.deliver_review (r : DRes) : r.deliver.1.review = r.st.review ∧ r.deliver.1.path = r.st.path ∧
    (r.deliver.1.app.running = true → r.st.app.running = true) := by
  unfold DRes.deliver
  split <;> exact ⟨rfl, rfl, fun h => by first | exact h | cases h⟩

theorem DDev.redraw_review (v : Option DView) (u : Upd) (s : DDev) :
    (s.redraw v u).1.review = none ∨ ((s.redraw v u).1.review = s.review ∧ (s.redraw v u).1.path = s.path) := by
  cases u with
  | rejected z =>
    cases v with
    | none => exact .inr ⟨rfl, rfl⟩
    | some v => exact .inl rfl
  | _ => exact .inr ⟨rfl, rfl⟩

theorem DDev.button_review (env : Env) (v : DView) (ev : Event) (s : DDev) :
    (s.button env v ev).1.review = none ∨
      ((s.button env v ev).1.review = s.review ∧ (s.button env v ev).1.path = s.path) := by
  have he : ∀ c f, (s.onError c f).1.review = none ∨
      ((s.onError c f).1.review = s.review ∧ (s.onError c f).1.path = s.path) := by
    intro c f
    unfold DDev.onError
    split
    · exact .inl rfl
    · exact .inr ⟨rfl, rfl⟩
  unfold DDev.button
  split
  · exact DDev.redraw_review _ _ _
  · exact DDev.redraw_review _ _ _
  · have hc : (s.choose env v).1.review = none ∨
        ((s.choose env v).1.review = s.review ∧ (s.choose env v).1.path = s.path) := by
      unfold DDev.choose
      split
      · exact .inl rfl
      · exact .inl rfl
      · exact .inr ⟨rfl, rfl⟩
    unfold DDev.pressBoth
    dsimp only
    split
    · rcases DDev.redraw_review (s.choose env v).1.review ((s.choose env v).1.app.zui.expertJump
        ((s.choose env v).1.review.map (DView.viewer (s.choose env v).1.app.upl))) (s.choose env v).1 with h | h
      · exact .inl h
      · rw [h.1, h.2]; exact hc
    · exact hc
  · exact he _ _
  · exact he _ _
  · exact he _ _
  · exact .inr ⟨rfl, rfl⟩

theorem DDev.cmdUpload_review {env : Env} {acc : Accessor} {p1 p2 : UInt8} {payload : Option Bytes}
    {finish : UInt8 → Bytes → Bytes → DDev → DRes} (s : DDev) :
    ((s.cmdUpload env acc p1 p2 payload finish).st.review = s.review ∧
      (s.cmdUpload env acc p1 p2 payload finish).st.path = s.path) ∨
    ∃ q2 first data ref t, (s.app.upl.upload env.copyF env.appendF acc p1 p2 payload).2 = .complete q2 first data ref ∧
      t.review = s.review ∧ t.path = s.path ∧
      (s.cmdUpload env acc p1 p2 payload finish).st.review = (finish q2 first data t).st.review ∧
      (s.cmdUpload env acc p1 p2 payload finish).st.path = (finish q2 first data t).st.path := by
  unfold DDev.cmdUpload
  dsimp only
  split
  case h_5 q2 first data ref hr =>
    exact .inr ⟨q2, first, data, ref,
      { s with app := { s.app with upl := (s.app.upl.upload env.copyF env.appendF acc p1 p2 payload).1 } }, hr, rfl, rfl,
      rfl, rfl⟩
  all_goals exact .inl ⟨rfl, rfl⟩

/-- The review of a digest after an event was pending before it, for the same key, or was opened by it. -/
theorem DDev.step_review {cfg : Config} {env : Env} {ev : Event} {s : DDev} {d m : Bytes}
    (hh : ∀ m, env.cr.blake2b 32 m ≠ none) (h : (s.step cfg env ev).1.review = some (.blind d m))
    (hrun : (s.step cfg env ev).1.app.running = true) :
    (s.review = some (.blind d m) ∧ s.app.running = true ∧ (s.step cfg env ev).1.path = s.path) ∨
    ∃ buf rx ins path curve, ev = .apdu buf rx ∧ DReceived cfg s buf rx ins .blindSign ∧
      DDev.Opens env s buf d m path curve ∧ (s.step cfg env ev).1.path = some (path, curve) := by
  have hnot : s.app.running ≠ true → ev = .relaunch := by
    intro hn
    cases ev with
    | relaunch => rfl
    | apdu buf rx =>
      simp only [DDev.step, hn, if_false, Bool.false_eq_true] at hrun
    | expert => simp [DDev.step, DDev.appStep, Dev.step, hn] at hrun
    | _ =>
      exfalso
      cases hr : s.review with
      | none => simp [DDev.step, hr, DDev.appStep, Dev.step, hn] at hrun
      | some v => simp [DDev.step, hr, hn] at hrun
  by_cases hr : s.app.running = true
  case neg =>
    rw [hnot hr] at h
    cases h
  cases ev with
  | relaunch => cases h
  | expert => exact .inl ⟨h, hr, rfl⟩
  | apdu buf rx =>
    rcases s.apdu_cases cfg env buf rx hr with ⟨hs, -, -⟩ | ⟨ins, c, hrec⟩
    · rw [hs] at h ⊢
      rw [(DRes.deliver_review _).1] at h
      rw [(DRes.deliver_review _).2.1]
      left
      refine ⟨?_, hr, rfl⟩
      unfold DDev.ofApp at h
      dsimp only at h
      split at h
      · cases h
      · exact h
    · rw [hrec.step] at h ⊢
      rw [(DRes.deliver_review _).1] at h
      rw [(DRes.deliver_review _).2.1]
      cases c with
      | hash =>
        simp only [DDev.exec, DDev.cmdHash] at h ⊢
        rcases DDev.cmdUpload_review (env := env) (acc := .sha256) (p1 := buf.getD 2 0) (p2 := buf.getD 3 0)
          (payload := apduPayload buf) (finish := fun _ first data s =>
            match env.cr.sha256 (first ++ data) with
            | none => s.fail .executionError
            | some d => if buf.length < d.length then s.fail .outputBufferTooSmall else s.ok d) s with
          ⟨h1, h2⟩ | ⟨q2, first, data, ref, t, -, ht1, ht2, h1, h2⟩
        · exact .inl ⟨h1 ▸ h, hr, h2⟩
        · have : ∀ r : DRes, r = (match env.cr.sha256 (first ++ data) with
              | none => t.fail .executionError
              | some d => if buf.length < d.length then t.fail .outputBufferTooSmall else t.ok d) →
              r.st.review = s.review ∧ r.st.path = s.path := by
            rintro r rfl
            repeat' split
            all_goals exact ⟨ht1, ht2⟩
          have := this _ rfl
          exact .inl ⟨by rw [← this.1, ← h1]; exact h, hr, h2.trans this.2⟩
      | except =>
        simp only [DDev.exec, DDev.cmdExcept] at h ⊢
        split at h
        · rename_i hp
          rw [if_pos hp]
          exact .inl ⟨h, hr, rfl⟩
        · rename_i hp
          rw [if_neg hp]
          exact .inl ⟨h, hr, rfl⟩
      | echo =>
        have hk : ∀ v : DView, v ≠ .blind d m → (s.show v).st.review ≠ some (.blind d m) := by
          intro v hv hx
          rcases (DDev.show_review v s).1 with h1 | h1
          · rw [h1] at hx; exact hv (by simpa using hx)
          · rw [h1] at hx; cases hx
        have hx : (s.exec env .echo buf).st.review = some (.blind d m) → s.review = some (.blind d m) ∧
            (s.exec env .echo buf).st.path = s.path := by
          simp only [DDev.exec, DDev.cmdEcho]
          split
          · exact fun h => ⟨h, rfl⟩
          · split
            · exact fun h => ⟨h, rfl⟩
            · split
              · exact fun h => ⟨h, rfl⟩
              · exact fun h => absurd h (hk _ (by simp))
        exact .inl ⟨(hx h).1, hr, (hx h).2⟩
      | debug =>
        have hk : ∀ t : DDev, (t.show .debug).st.review ≠ some (.blind d m) := by
          intro t hx
          rcases (DDev.show_review .debug t).1 with h1 | h1 <;> rw [h1] at hx <;> cases hx
        have hx : (s.exec env .debug buf).st.review = some (.blind d m) → s.review = some (.blind d m) ∧
            (s.exec env .debug buf).st.path = s.path := by
          simp only [DDev.exec, DDev.cmdDebug]
          split
          · exact fun h => ⟨h, rfl⟩
          · split
            · exact fun h => ⟨h, rfl⟩
            · exact fun h => ⟨h, rfl⟩
            · exact fun h => ⟨h, rfl⟩
            · split
              · exact fun h => ⟨h, rfl⟩
              · exact fun h => ⟨h, rfl⟩
              · exact fun h => ⟨h, rfl⟩
              · exact fun h => absurd h (hk _)
        exact .inl ⟨(hx h).1, hr, (hx h).2⟩
      | blindSign =>
        simp only [DDev.exec] at h ⊢
        rcases DDev.cmdUpload_review (env := env) (acc := .blindSign) (p1 := buf.getD 2 0) (p2 := buf.getD 3 0)
          (payload := apduPayload buf) (finish := fun p2 first data s => s.blindSign env p2 first data) s with
          ⟨h1, h2⟩ | ⟨q2, first, data, ref, t, hc, ht1, ht2, h1, h2⟩
        · exact .inl ⟨h1 ▸ h, hr, h2⟩
        · rcases t.blindSign_review hh q2 first data with ⟨h3, h4⟩ | ⟨curve, path, digest, hcv, hp, hd, ⟨h3, h4⟩ | h3⟩
          · exact .inl ⟨by rw [← ht1, ← h3, ← h1]; exact h, hr, (h2.trans h4).trans ht2⟩
          · rw [h1, h3] at h
            simp only [Option.some.injEq, DView.blind.injEq] at h
            obtain ⟨rfl, rfl⟩ := h
            exact .inr ⟨buf, rx, ins, path, curve, rfl, hrec, ⟨⟨q2, first, ref, hc, hcv, hp⟩, hd⟩, h2.trans h4⟩
          · rw [h1, h3] at h
            cases h
  | left | right | both =>
    cases hv : s.review with
    | none =>
      simp only [DDev.step, hv, DDev.appStep] at h
      cases h
    | some v =>
      simp only [DDev.step, hv, hr, if_true] at h ⊢
      rcases s.button_review env v _ with h1 | h1
      · rw [h1] at h; cases h
      · rw [h1.1, hv] at h
        exact .inl ⟨h, trivial, h1.2⟩

theorem DDev.run_append (cfg : Config) (s : DDev) (a b : List (Env × Event)) :
    s.run cfg (a ++ b) = (((s.run cfg a).1.run cfg b).1, (s.run cfg a).2 ++ ((s.run cfg a).1.run cfg b).2) := by
  induction a generalizing s with
  | nil => rfl
  | cons x xs ih => simp only [List.cons_append, DDev.run, ih]

theorem DDev.trace_append (cfg : Config) (s : DDev) (a b : List (Env × Event)) :
    s.trace cfg (a ++ b) = s.trace cfg a ++ (s.run cfg a).1.trace cfg b := by
  induction a generalizing s with
  | nil => rfl
  | cons x xs ih => simp only [List.cons_append, DDev.trace, DDev.run, ih]

/-- A pending review of a digest was opened by a request, and has been pending since, for the key the request named. -/
theorem DDev.pending_blind {cfg : Config} {s : DDev} (hs : s.review = none) {es : List (Env × Event)}
    (hh : ∀ e ∈ es, ∀ m, e.1.cr.blake2b 32 m ≠ none) {d m : Bytes}
    (h : (s.run cfg es).1.review = some (.blind d m)) (hrun : (s.run cfg es).1.app.running = true) :
    ∃ a m0 b buf rx ins path curve, s.trace cfg es = a ++ m0 :: b ∧ m0.ev = .apdu buf rx ∧
      DReceived cfg m0.st buf rx ins .blindSign ∧ DDev.Opens m0.env m0.st buf d m path curve ∧
      (m0.next cfg).review = some (.blind d m) ∧ (∀ m' ∈ b, m'.st.review = some (.blind d m)) ∧
      (s.run cfg es).1.path = some (path, curve) := by
  induction es using List.reverseRecOn with
  | nil => rw [DDev.run, hs] at h; cases h
  | append_singleton es x ih =>
    have he : (s.run cfg (es ++ [x])).1 = ((s.run cfg es).1.step cfg x.1 x.2).1 := by
      rw [DDev.run_append]; rfl
    rw [he] at h hrun ⊢
    have ht : s.trace cfg (es ++ [x]) = s.trace cfg es ++
        [⟨(s.run cfg es).1, x.1, x.2, ((s.run cfg es).1.step cfg x.1 x.2).2⟩] := by
      rw [DDev.trace_append]; rfl
    rcases DDev.step_review (hh x (by simp)) h hrun with ⟨h1, h2, h3⟩ | ⟨buf, rx, ins, path, curve, hev, hrec, hop, hpath⟩
    · obtain ⟨a, m0, b, buf, rx, ins, path, curve, hta, r1, r2, r3, r4, r5, r6⟩ :=
        ih (fun e he' => hh e (by simp [he'])) h1 h2
      refine ⟨a, m0, b ++ [⟨(s.run cfg es).1, x.1, x.2, ((s.run cfg es).1.step cfg x.1 x.2).2⟩], buf, rx, ins, path,
        curve, by rw [ht, hta]; simp, r1, r2, r3, r4, ?_, h3.trans r6⟩
      intro m' hm'
      rcases List.mem_append.mp hm' with hm' | hm'
      · exact r5 m' hm'
      · simp only [List.mem_singleton] at hm'
        rw [hm']
        exact h1
    · exact ⟨_, ⟨(s.run cfg es).1, x.1, x.2, ((s.run cfg es).1.step cfg x.1 x.2).2⟩, [], buf, rx, ins, path, curve, ht,
        hev, hrec, hop, h, by simp, hpath⟩

/-! ### C90 -/

/-- C90: along every history of a development build, on a device whose flash and hash functions work, a signature given
while a review of that build is pending is given on pressing both buttons at its approval. The review was opened by a
blind signing request, completing an upload of exactly the signed message for the key it is signed with, and has been
pending since. The digest signed is the hash of that message, and the reply is the digest and the signature. -/
theorem C90_blind_signature (cfg : Config) (new : NewDevice) (hu : new.upload.length = uploadCapacity)
    (es : List (Env × Event)) (hg : ∀ e ∈ es, Good e.1 e.2) (hh : ∀ e ∈ es, ∀ m, e.1.cr.blake2b 32 m ≠ none)
    (past rest : List DMoment) (m : DMoment) (h : (DDev.factory new).trace cfg es = past ++ m :: rest) (x : SigRec)
    (hx : m.out.sig = some x) (hr : m.st.review ≠ none) (hb : ∀ buf rx, m.ev ≠ .apdu buf rx) :
    m.ev = .both ∧ m.st.app.zui.chosen = .approve ∧ (∃ t a b, m.st.app.zui.screen = .review t a b) ∧
      m.out.reply = some (x.digest ++ x.sig ++ [0x90, 0x00]) ∧ m.env.cr.sign x.curve x.path x.digest = some x.sig ∧
      ∃ a m0 b k q2 first, past = a ++ m0 :: b ∧ m0.ev.develPacket cfg.build = some k ∧ k.family = .blindSign ∧
        (feed (develSessionIn cfg a) k).2 = some (q2, first, x.msg) ∧ Curve.ofByte q2 = some x.curve ∧
        first = UInt8.ofNat x.path.length :: x.path.flatMap be32 ∧ m0.env.cr.blake2b 32 x.msg = some x.digest ∧
        (m0.next cfg).review = some (.blind x.digest x.msg) ∧
        ∀ m' ∈ b, m'.st.review = some (.blind x.digest x.msg) := by
  obtain ⟨ea, eb, rfl, -, rfl, hst, ho, -⟩ := DDev.trace_split h
  rw [ho] at hx ⊢
  obtain ⟨v, hv⟩ := Option.ne_none_iff_exists'.mp hr
  have hstep : m.st.step cfg m.env m.ev = m.st.button m.env v m.ev ∧ m.st.app.running = true := by
    have hrun : m.st.app.running = true := by
      by_cases hrun : m.st.app.running = true
      · exact hrun
      · exfalso
        cases hev : m.ev <;> rw [hev] at hx <;> simp [DDev.step, hv, hrun, DDev.appStep, Dev.step, Output.quiet] at hx
    refine ⟨?_, hrun⟩
    cases hev : m.ev with
    | apdu buf rx => exact absurd hev (hb buf rx)
    | relaunch => rw [hev] at hx; cases hx
    | expert =>
      rw [hev] at hx
      simp only [DDev.step, DDev.appStep, Dev.step, Output.quiet] at hx
      split at hx <;> cases hx
    | _ => simp only [DDev.step, hv, hrun, if_true]
  obtain ⟨hstep, hrun⟩ := hstep
  rw [hstep] at hx ⊢
  obtain ⟨h1, h2, h3, path, curve, sig, h4, h5, h6, h7, h8⟩ := DDev.button_sig hx
  have hs : x.sig = sig := by rw [h7]
  have hc' : x.curve = curve := by rw [h7]
  have hp' : x.path = path := by rw [h7]
  refine ⟨h1, h2, h3, ?_, ?_, ?_⟩
  · rw [h8, hs]
    rfl
  · rw [hs, hc', hp']; exact h6
  rw [h4] at hv
  rw [hst] at hv hrun h5
  obtain ⟨a, m0, b, buf, rx, ins, path', curve', ht, hev, hrec, hop, hn, hall, hp⟩ :=
    DDev.pending_blind (s := DDev.factory new) rfl (fun e he => hh e (by simp [he])) hv hrun
  rw [hp] at h5
  cases h5
  obtain ⟨⟨q2, first, ref, hc, hcv, hpa⟩, hdg⟩ := hop
  obtain ⟨e1, e2, he1, -, ha, hst0, -, -⟩ := DDev.trace_split ht
  have hg0 : Good m0.env m0.ev := hg (m0.env, m0.ev) (by rw [he1]; simp)
  have hinv : DUplInv m0.st.app.upl (develSessionIn cfg a) := by
    rw [ha, hst0]
    exact devel_session hu fun e he => hg e (by rw [he1]; simp [he])
  have hfull := hg0.full
  rw [hev] at hfull
  rw [apduPayload_full hfull, hg0.copy, hg0.append] at hc
  refine ⟨a, m0, b, _, q2, first, ht, by rw [hev, hrec.packet]; rfl, rfl,
    (Upl.upload_devel hinv ⟨.blindSign, _, _, _⟩ (payload_length_le buf) (by simp)).2 _ _ _ _ hc, ?_, ?_, hdg, hn, hall⟩
  · rw [hc']; exact hcv
  · rw [hp']; exact (Path.read_ok.mp hpa).2.2.2

/-! ### What is shown -/

theorem hexEncode_drop (b : Bytes) (k : Nat) : hexEncode (b.drop k) = (hexEncode b).drop (2 * k) := by
  induction b generalizing k with
  | nil => simp [hexEncode]
  | cons x xs ih =>
    cases k with
    | zero => rfl
    | succ k =>
      rw [List.drop_succ_cons, ih]
      simp only [hexEncode, List.flatMap_cons, List.cons_append, List.nil_append]
      rw [show 2 * (k + 1) = 2 * k + 1 + 1 by omega, List.drop_succ_cons, List.drop_succ_cons]

theorem hexEncode_take (b : Bytes) (k : Nat) : hexEncode (b.take k) = (hexEncode b).take (2 * k) := by
  induction b generalizing k with
  | nil => simp [hexEncode]
  | cons x xs ih =>
    cases k with
    | zero => rfl
    | succ k =>
      rw [List.take_succ_cons]
      simp only [hexEncode, List.flatMap_cons, List.cons_append, List.nil_append] at ih ⊢
      rw [show 2 * (k + 1) = 2 * k + 1 + 1 by omega, List.take_succ_cons, List.take_succ_cons, ih]

/-- The pages of the review of a digest are the pages of its hexadecimal text. -/
theorem blindPage_eq {digest : Bytes} (hd : digest.length = 32) {outLen : Nat} (ho : outLen % 2 = 1) (h3 : 3 ≤ outLen)
    (page : UInt8) : blindPage digest outLen page = handleUi (hexEncode digest) outLen page := by
  have hl : (hexEncode digest).length = 64 := by rw [hexEncode_length, hd]
  obtain ⟨m, rfl⟩ : ∃ m, outLen = 2 * m + 1 := ⟨outLen / 2, by omega⟩
  unfold blindPage handleUi
  rw [if_neg (show ¬ 2 * m + 1 = 0 by omega), if_neg (show ¬ 2 * m + 1 ≤ 1 by omega)]
  simp only [Nat.add_sub_cancel, hl, Nat.reduceMul, Nat.mul_div_cancel_left m (show 0 < 2 by omega)]
  by_cases h : 2 * m ≤ 64
  · rw [if_pos h, if_pos h, if_neg (show ¬ m = 0 by omega)]
    unfold nthChunk
    rw [hl, hd]
    by_cases hp : page.toNat * m < 32
    · rw [if_pos hp, if_pos (by rw [Nat.mul_left_comm]; omega)]
      simp only [hexEncode_take, hexEncode_drop]
      rw [Nat.mul_left_comm]
    · rw [if_neg hp, if_neg (by rw [Nat.mul_left_comm]; omega)]
  · rw [if_neg h, if_neg h]

/-- On the larger display it is on one page. -/
theorem blindPage_large {digest : Bytes} (hd : digest.length = 32) (page : UInt8) :
    blindPage digest messageSizeX page = handleUi (hexEncode digest) messageSizeX page := by
  have hl : (hexEncode digest).length = 64 := by rw [hexEncode_length, hd]
  unfold blindPage handleUi messageSizeX
  rw [if_neg (by omega), if_neg (by omega)]
  simp only [hl, Nat.reduceSub, Nat.reduceMul, Nat.reduceLeDiff, if_false]

theorem takeWhile_self {p : UInt8 → Bool} {t : Bytes} (h : ∀ c ∈ t, p c) : t.takeWhile p = t := by
  induction t with
  | nil => rfl
  | cons x xs ih =>
    rw [List.takeWhile_cons_of_pos (h x (by simp)), ih fun c hc => h c (by simp [hc])]

theorem asciify_hex {t b : Bytes} (h : ∀ c ∈ t, c ∈ hexEncode b) : asciify t = t := by
  have hd : ∀ n < 16, hexDigit n ≠ 0 ∧ 32 ≤ hexDigit n ∧ hexDigit n ≤ 0x7F := by decide
  have hc : ∀ c ∈ t, c ≠ 0 ∧ 32 ≤ c ∧ c ≤ 0x7F := by
    intro c hc
    have := h c hc
    simp only [hexEncode, List.mem_flatMap, List.mem_cons, List.not_mem_nil, or_false] at this
    obtain ⟨x, -, rfl | rfl⟩ := this
    · exact hd _ (by have := x.toNat_lt; omega)
    · exact hd _ (by omega)
  unfold asciify
  rw [takeWhile_self (p := (· != 0)) (by intro c hcc; simpa using (hc c hcc).1)]
  conv_rhs => rw [← List.map_id t]
  refine List.map_congr_left fun c hcc => ?_
  rw [if_pos (hc c hcc).2]
  rfl

/-- The screens of the review of a digest, before the approval. -/
def blindScreens (d : Display) (digest : Bytes) : List Screen :=
  let t := hexEncode digest
  match d with
  | .small => [.review (ascii "Blind Sign [1/2]") (t.take 17) ((t.drop 17).take 17),
      .review (ascii "Blind Sign [2/2]") ((t.drop 34).take 17) (t.drop 51)]
  | .large => [.review (ascii "Please") (ascii "review") [], .review (ascii "Blind Sign") t []]

/-- The item of the review. -/
def blindField (digest : Bytes) : Field := ⟨ascii "Blind Sign", hexEncode digest⟩

theorem blindField_pages {digest : Bytes} (hd : digest.length = 32) :
    pagesOf 34 (blindField digest).text = [(hexEncode digest).take 34, (hexEncode digest).drop 34] := by
  have hl : (hexEncode digest).length = 64 := by rw [hexEncode_length, hd]
  show pagesOf 34 (hexEncode digest) = _
  have h0 : hexEncode digest ≠ [] := by rintro h; rw [h] at hl; cases hl
  have h1 : (hexEncode digest).drop 34 ≠ [] := by
    intro h
    have := congrArg List.length h
    rw [List.length_drop, hl] at this
    cases this
  unfold pagesOf
  rw [if_neg h0, hl]
  simp only [chunksOf, h0, if_false, h1]
  rw [if_pos (by rw [List.drop_drop, List.drop_eq_nil_iff, hl]; omega)]
  rw [List.take_of_length_le (l := (hexEncode digest).drop 34) (by rw [List.length_drop, hl]; omega)]

theorem blindField_screens {digest : Bytes} (hd : digest.length = 32) :
    reviewScreens ((DView.blind digest []).viewer (Upl.init [])) 1 = blindScreens .small digest := by
  have hl : (hexEncode digest).length = 64 := by rw [hexEncode_length, hd]
  have hp : reviewPages ((DView.blind digest []).viewer (Upl.init [])) 1 = [(blindField digest, 0), (blindField digest, 1)] := by
    show [] ++ (List.range (pagesOf 34 (blindField digest).text).length).map _ = _
    rw [blindField_pages hd]
    rfl
  have ha : announcedPages (blindField digest).text = 2 := by
    show announcedPages (hexEncode digest) = 2
    unfold announcedPages
    rw [hl]
    rfl
  have h1 : asciify ((hexEncode digest).take 34) = (hexEncode digest).take 34 :=
    asciify_hex (b := digest) fun c h => List.mem_of_mem_take h
  have h2 : asciify ((hexEncode digest).drop 34) = (hexEncode digest).drop 34 :=
    asciify_hex (b := digest) fun c h => List.mem_of_mem_drop h
  have hk1 : keyWithPage (asciify (ascii "Blind Sign")) 0 2 = ascii "Blind Sign [1/2]" := by decide +kernel
  have hk2 : keyWithPage (asciify (ascii "Blind Sign")) 1 2 = ascii "Blind Sign [2/2]" := by decide +kernel
  have hs1 : splitLines ((hexEncode digest).take 34) =
      ((hexEncode digest).take 17, ((hexEncode digest).drop 17).take 17) := by
    unfold splitLines lineSize
    rw [if_pos (by rw [List.length_take, hl]; decide)]
    simp only [Nat.reduceSub, List.take_take, Nat.reduceLeDiff, Nat.min_def, if_true]
    rw [List.drop_take]
  have hs2 : splitLines ((hexEncode digest).drop 34) =
      (((hexEncode digest).drop 34).take 17, (hexEncode digest).drop 51) := by
    unfold splitLines lineSize
    rw [if_pos (by rw [List.length_drop, hl]; decide)]
    simp only [Nat.reduceSub, List.drop_drop, Nat.reduceAdd]
  unfold reviewScreens
  rw [hp]
  simp only [List.map_cons, List.map_nil, screenOf, ha, blindField_pages hd, pageScreen, blindScreens]
  simp only [List.getD_cons_zero, List.getD_cons_succ, h1, h2, hs1, hs2]
  rw [show asciify (blindField digest).title = asciify (ascii "Blind Sign") from rfl, hk1, hk2]

/-- The pages shown tell the digest. -/
theorem blindScreens_injective {d : Display} {a b : Bytes}
    (h : blindScreens d a = blindScreens d b) : a = b := by
  refine hexEncode_injective ?_
  cases d with
  | small =>
    simp only [blindScreens, List.cons.injEq, Screen.review.injEq, true_and, and_true] at h
    obtain ⟨⟨h1, h2⟩, h3, h4⟩ := h
    have e : ∀ t : Bytes, t = t.take 17 ++ ((t.drop 17).take 17 ++ ((t.drop 34).take 17 ++ t.drop 51)) := by
      intro t
      have e1 : t.drop 51 = (t.drop 34).drop 17 := by rw [List.drop_drop]
      have e2 : t.drop 34 = (t.drop 17).drop 17 := by rw [List.drop_drop]
      rw [e1, List.take_append_drop, e2, List.take_append_drop, List.take_append_drop]
    rw [e (hexEncode a), e (hexEncode b), h1, h2, h3, h4]
  | large =>
    simp only [blindScreens, List.cons.injEq, Screen.review.injEq, true_and, and_true] at h
    exact h

/-! ### Reading and approving -/

/-- Two presses of the right button lead through a review to its approval, on either display. -/
theorem blind_read {digest msg : Bytes} (hd : digest.length = 32) (u : Upl) (z : Zui) :
    ∃ z1 z2 z3, z.openReview ((DView.blind digest msg).viewer u) = .shown z1 ∧
      (∀ u', z1.goRight (some ((DView.blind digest msg).viewer u')) = .shown z2) ∧
      (∀ u', z2.goRight (some ((DView.blind digest msg).viewer u')) = .shown z3) ∧
      [z1.screen, z2.screen] = blindScreens z.display digest ∧ z3.screen = approveScreen ∧ z3.chosen = .approve := by
  have hl : (hexEncode digest).length = 64 := by rw [hexEncode_length, hd]
  have hv : ∀ u', (DView.blind digest msg).viewer u' = (DView.blind digest []).viewer (Upl.init []) := fun _ => rfl
  simp only [hv]
  generalize hw : (DView.blind digest []).viewer (Upl.init []) = w
  have hitem : w.item 0 = .ok (blindField digest) := by rw [← hw]; rfl
  have hnum : w.numItems = .ok 1 := by rw [← hw]; rfl
  cases hlg : z.large with
  | none =>
    have hdisp : z.display = .small := by unfold Zui.display; rw [hlg]; rfl
    have hleg : Legible w 1 := ⟨hnum, fun i hi => ⟨blindField digest, by
      have : i = 0 := by simpa using hi
      subst this
      exact hitem, ⟨by show (hexEncode digest).length < _; omega, .inl (by show (hexEncode digest).length % 34 ≠ 0; omega)⟩⟩⟩
    obtain ⟨z1, z3, h1, h2, h3, -, -⟩ := C76_walk hleg (by decide) z
    have hscr : reviewScreens w (1 : UInt8).toNat = blindScreens .small digest := by
      rw [← hw]; exact blindField_screens hd
    have hlen : (reviewPages w (1 : UInt8).toNat).length = 2 := by
      have := congrArg List.length hscr
      rw [reviewScreens, List.length_map] at this
      exact this
    rw [hlen, hscr] at h2
    simp only [List.replicate_succ, List.replicate_zero, uiRun] at h2
    have g1 : z1.large = none := (Zui.reviewUpdate_large h1).trans hlg
    cases hr1 : z1.right (some w) with
    | shown z2 =>
      simp only [hr1] at h2
      have g2 : z2.large = none := (Zui.reviewUpdate_large hr1).trans ((Zui.pagingIncrease_large z1).trans g1)
      cases hr2 : z2.right (some w) with
      | shown z3' =>
        simp only [hr2, Option.some.injEq, Prod.mk.injEq] at h2
        obtain ⟨rfl, h2⟩ := h2
        have g3 : z3'.large = none := (Zui.reviewUpdate_large hr2).trans ((Zui.pagingIncrease_large z2).trans g2)
        have h2' : [z1.screen, z2.screen] ++ [z3'.screen] = blindScreens .small digest ++ [approveScreen] := by
          rw [← h2]; simp
        obtain ⟨e1, e2⟩ := List.append_inj' h2' rfl
        refine ⟨z1, z2, z3', by rw [Zui.openReview, hlg]; exact h1, fun _ => by rw [Zui.goRight, g1]; exact hr1,
          fun _ => by rw [Zui.goRight, g2]; exact hr2, by rw [hdisp]; exact e1, (List.cons.inj e2).1, ?_⟩
        rw [Zui.chosen, g3]
        exact h3
      | _ => simp only [hr2] at h2; cases h2
    | _ => simp only [hr1] at h2; cases h2
  | some l =>
    have hdisp : z.display = .large := Zui.display_large.mpr ⟨l, hlg⟩
    have hfit : FitsX w 1 := by
      refine ⟨hnum, ?_, ?_⟩
      · intro n f hf
        rw [← hw] at hf
        simp only [DView.viewer] at hf
        split at hf
        · cases hf
          show (hexEncode digest).length < _
          omega
        · cases hf
      · intro i hi
        have : i = 0 := by simpa using hi
        subst this
        rw [show UInt8.ofNat 0 = 0 from rfl, hitem]
        simp
    obtain ⟨x3, h2, h3, -, -⟩ := C75_walk hfit (by decide) (fun i hi => ⟨blindField digest, by
      have : i = 0 := by simpa using hi
      subst this
      exact hitem⟩) (by rw [← hw]; rfl) l.x
    have hsh : shownItems w (1 : UInt8).toNat = [SeenX.shows (blindField digest)] := by
      show shownItems w 1 = _
      simp only [shownItems, List.nil_append]
      rw [show UInt8.ofNat 0 = 0 from rfl, hitem]
    rw [hsh] at h2
    simp only [show (1 : UInt8).toNat + 1 = 2 from rfl, List.replicate_succ, List.replicate_zero, uiRunX] at h2
    cases hr1 : l.x.showReview.right (some w) with
    | on x2 =>
      simp only [hr1] at h2
      cases hr2 : x2.right (some w) with
      | on x3' =>
        simp only [hr2, Option.some.injEq, Prod.mk.injEq] at h2
        obtain ⟨rfl, h2⟩ := h2
        have h2' : [SeenX.please, x2.seen, x3'.seen] = [SeenX.please, SeenX.shows (blindField digest), SeenX.approve] := by
          simpa using h2
        simp only [List.cons.injEq, true_and, and_true] at h2'
        obtain ⟨e1, e2⟩ := h2'
        refine ⟨z.atStep l l.x.showReview, (z.atStep l l.x.showReview).atStep ⟨l.x.showReview, l.err⟩ x2,
          ((z.atStep l l.x.showReview).atStep ⟨l.x.showReview, l.err⟩ x2).atStep ⟨x2, l.err⟩ x3', ?_, ?_, ?_, ?_, ?_, ?_⟩
        · rw [Zui.openReview, hlg]
        · intro _
          simp only [Zui.goRight, Zui.atStep, hr1, Zui.ofResX]
        · intro _
          simp only [Zui.goRight, Zui.atStep, hr2, Zui.ofResX]
        · rw [hdisp]
          show [l.x.showReview.screen, x2.screen] = _
          rw [← ZuiX.seen_screen x2, e1]
          have ht : asciify (hexEncode digest) = hexEncode digest := asciify_hex (b := digest) fun c h => h
          have hk : asciify (ascii "Blind Sign") = ascii "Blind Sign" := by decide +kernel
          show [Screen.review (ascii "Please") (ascii "review") [],
            .review (asciify (ascii "Blind Sign")) (asciify (hexEncode digest)) []] = _
          rw [ht, hk]
          rfl
        · show x3'.screen = _
          rw [← ZuiX.seen_screen x3', e2]
          rfl
        · exact h3
      | _ => simp only [hr2] at h2; cases h2
    | _ => simp only [hr1] at h2; cases h2

/-- A packet that completes an upload. -/
theorem Upl.upload_completes {u : Upl} {s : Option (Session Accessor)} (h : DUplInv u s) (k : Packet Accessor)
    (hp : k.payload.length ≤ 255) {q2 : UInt8} {first data : Bytes} (hf : (feed s k).2 = some (q2, first, data)) :
    ∃ r, (u.upload .done .done k.family k.p1 k.p2 (some k.payload)).2 = .complete q2 first data r := by
  have hd : u.lock ≠ some .debug := by
    cases s with
    | none =>
      exfalso
      unfold feed at hf
      split at hf <;> simp_all
    | some x =>
      intro hl
      have := h.session.2.1
      rw [hl] at this
      exact h.session.1 (by simpa using this.symm)
  obtain ⟨r, h1, -⟩ := (Upl.upload_fed (h.devel hd) k hp).some q2 first data hf
  exact ⟨r, h1⟩

theorem DView.viewer_blind (d m : Bytes) (u u' : Upl) : (DView.blind d m).viewer u = (DView.blind d m).viewer u' := rfl

theorem DDev.button_right {env : Env} {v : DView} {s : DDev} {z : Zui} {t a b : Bytes}
    (hs : s.app.zui.screen = .review t a b) (h : s.app.zui.goRight (some (v.viewer s.app.upl)) = .shown z) :
    s.button env v .right = (s.withZui z, .quiet) := by
  simp only [DDev.button, hs, h, DDev.redraw]

/-- The choice of an item at the end of a review: nothing is pending afterwards, and what was answered is answered. -/
theorem DDev.button_chosen {env : Env} {v : DView} {s : DDev} {t a b : Bytes}
    (hs : s.app.zui.screen = .review t a b) (hn : (s.choose env v).1.review = none)
    (hr : (s.choose env v).2.reply ≠ none) (hf : (s.choose env v).2.fault = none) :
    (s.button env v .both).2 = (s.choose env v).2 ∧ (s.button env v .both).1.review = none ∧
      (s.button env v .both).1.path = (s.choose env v).1.path := by
  simp only [DDev.button, hs, DDev.pressBoth]
  split
  · simp only [hn, Option.map_none, Zui.expertJump, reviewUpdate, DDev.redraw, Output.quiet]
    refine ⟨?_, hn, rfl⟩
    obtain ⟨x, hx⟩ := Option.ne_none_iff_exists'.mp hr
    generalize (s.choose env v).2 = o at hx hf ⊢
    obtain ⟨o1, o2, o3⟩ := o
    cases hx
    cases hf
    rfl
  · exact ⟨rfl, hn, rfl⟩

/-- C90: a blind signing request is served. After any history of a development build, the packet completing an upload of
a key and a message, for a key that the app can use, opens the review of the hash of the message. The right button shows
its two pages, which tell the hash, and the approval; then both buttons give the hash and its signature, made with the
key named by the upload. -/
theorem C90_granted (cfg : Config) (new : NewDevice) (hu : new.upload.length = uploadCapacity)
    (es : List (Env × Event)) (hg : ∀ e ∈ es, Good e.1 e.2) (hrun : ((DDev.factory new).run cfg es).1.app.running = true)
    (env env1 env2 env3 : Env) (ev : Event) (hgood : Good env ev) (k : Packet Accessor)
    (hk : ev.develPacket cfg.build = some k) (hfam : k.family = .blindSign) (q2 : UInt8) (data : Bytes) (path : Path)
    (hfed : (feed (develSessionIn cfg ((DDev.factory new).trace cfg es)) k).2 =
      some (q2, UInt8.ofNat path.length :: path.flatMap be32, data))
    (curve : Curve) (hcurve : Curve.ofByte q2 = some curve) (h1 : 1 ≤ path.length) (h10 : path.length ≤ bip32MaxLength)
    (digest sig : Bytes) (hdig : env.cr.blake2b 32 data = some digest) (hlen : digest.length = 32)
    (hsig : env3.cr.sign curve path digest = some sig) :
    let s := ((DDev.factory new).run cfg es).1
    ∃ s1 s2 s3 s4, s.step cfg env ev = (s1, .quiet) ∧ s1.step cfg env1 .right = (s2, .quiet) ∧
      s2.step cfg env2 .right = (s3, .quiet) ∧
      s3.step cfg env3 .both =
        (s4, ⟨some (digest ++ sig ++ [0x90, 0x00]), some ⟨curve, path, digest, data, sig⟩, none⟩) ∧
      [s1.app.zui.screen, s2.app.zui.screen, s3.app.zui.screen] =
        blindScreens s.app.zui.display digest ++ [approveScreen] ∧
      s4.review = none ∧ s4.path = none := by
  intro s
  have hinv : DUplInv s.app.upl (develSessionIn cfg ((DDev.factory new).trace cfg es)) := devel_session hu hg
  obtain ⟨buf, rx, rfl⟩ : ∃ buf rx, ev = .apdu buf rx := by
    cases ev with
    | apdu buf rx => exact ⟨buf, rx, rfl⟩
    | _ => cases hk
  obtain ⟨ins, hrec, hkk⟩ : ∃ ins, DReceived cfg s buf rx ins .blindSign ∧
      k = ⟨.blindSign, buf.getD 2 0, buf.getD 3 0, slice buf 5 (buf.getD 4 0).toNat⟩ := by
    rcases s.apdu_cases cfg env buf rx hrun with ⟨-, h, -⟩ | ⟨ins, c, hrec⟩
    · rw [h] at hk
      exact absurd hfam (Event.packet_devel hk).1
    · have := hrec.packet
      rw [hk] at this
      cases c <;> simp only [DCmd.accessor, Option.map_none, Option.map_some] at this
      · cases this; cases hfam
      · cases this
      · cases this
      · exact ⟨ins, hrec, by simpa using this⟩
      · cases this
  have hfull : (Event.apdu buf rx).Full := hgood.full
  subst hkk
  obtain ⟨ref, hc⟩ := Upl.upload_completes hinv _ (payload_length_le buf) hfed
  have hpath : Path.read bip32MaxLength (UInt8.ofNat path.length :: path.flatMap be32) = .ok path :=
    Path.read_ok.mpr ⟨h1, h10, by have : bip32MaxLength < 256 := by decide
                                  omega, rfl⟩
  obtain ⟨z1, z2, z3, r1, r2, r3, r4, r5, r6⟩ := blind_read (msg := data) hlen
    (s.app.upl.upload .done .done .blindSign (buf.getD 2 0) (buf.getD 3 0) (some (slice buf 5 (buf.getD 4 0).toNat))).1
    s.app.zui
  have hz1 : ∃ t a b, z1.screen = .review t a b := by
    cases hd : s.app.zui.display <;> rw [hd] at r4 <;> simp only [blindScreens, List.cons.injEq] at r4 <;>
      exact ⟨_, _, _, r4.1⟩
  have hz2 : ∃ t a b, z2.screen = .review t a b := by
    cases hd : s.app.zui.display <;> rw [hd] at r4 <;> simp only [blindScreens, List.cons.injEq] at r4 <;>
      exact ⟨_, _, _, r4.2.1⟩
  obtain ⟨t1, a1, b1, hz1⟩ := hz1
  obtain ⟨t2, a2, b2, hz2⟩ := hz2
  obtain ⟨u1, hs1⟩ : ∃ u1, s.step cfg env (.apdu buf rx) =
      (⟨{ s.app with upl := u1, view := none, zui := z1 }, some (path, curve), some (.blind digest data)⟩, .quiet) := by
    rw [hrec.step]
    simp only [DDev.exec, DDev.cmdUpload]
    rw [apduPayload_full hfull, hgood.copy, hgood.append, hc]
    simp only [DDev.blindSign, hcurve, hpath, hdig, DDev.show, r1, DRes.deliver]
    exact ⟨_, rfl⟩
  have hz3 : ∃ t a b, z3.screen = .review t a b := ⟨_, _, _, r5⟩
  obtain ⟨t3, a3, b3, hz3⟩ := hz3
  let s1 : DDev := ⟨{ s.app with upl := u1, view := none, zui := z1 }, some (path, curve), some (.blind digest data)⟩
  have hs2 : s1.step cfg env1 .right = (s1.withZui z2, .quiet) := by
    show (if s1.app.running then s1.button env1 (.blind digest data) .right else _) = _
    rw [if_pos hrun]
    exact DDev.button_right hz1 (r2 _)
  have hs3 : (s1.withZui z2).step cfg env2 .right = (s1.withZui z3, .quiet) := by
    show (if s1.app.running then (s1.withZui z2).button env2 (.blind digest data) .right else _) = _
    rw [if_pos hrun]
    exact DDev.button_right (s := s1.withZui z2) hz2 (r3 _)
  have hs4 : (s1.withZui z3).step cfg env3 .both = (s1.withZui z3).button env3 (.blind digest data) .both := by
    show (if s1.app.running then (s1.withZui z3).button env3 (.blind digest data) .both else _) = _
    rw [if_pos hrun]
  have hch : (s1.withZui z3).choose env3 (.blind digest data) = (s1.withZui z3).approve env3 (.blind digest data) := by
    simp only [DDev.choose]
    rw [show (s1.withZui z3).app.zui.chosen = .approve from r6]
  have hap : ((s1.withZui z3).approve env3 (.blind digest data)).2 =
        ⟨some (digest ++ sig ++ [0x90, 0x00]), some ⟨curve, path, digest, data, sig⟩, none⟩ ∧
      ((s1.withZui z3).approve env3 (.blind digest data)).1.path = none := by
    simp only [DDev.approve, DView.accept, DDev.withZui, s1, hsig]
    exact ⟨rfl, rfl⟩
  have hbt := DDev.button_chosen (env := env3) (v := .blind digest data) (s := s1.withZui z3) hz3
    (by rw [hch]; rfl) (by rw [hch, hap.1]; simp) (by rw [hch, hap.1])
  refine ⟨_, _, _, _, hs1, hs2, hs3, ?_, ?_, hbt.2.1, ?_⟩
  · rw [hs4, ← hap.1, ← hch, ← hbt.1]
  · show [z1.screen, z2.screen] ++ [z3.screen] = _
    rw [r4, r5]
  · rw [hbt.2.2, hch, hap.2]

/-- C90: rejecting it gives no signature, and forgets the key. -/
theorem C90_rejection (cfg : Config) (s : DDev) (hrun : s.app.running = true) (digest msg : Bytes)
    (hr : s.review = some (.blind digest msg)) (env : Env) (hc : s.app.zui.chosen = .reject) (t a b : Bytes)
    (hs : s.app.zui.screen = .review t a b) :
    (s.step cfg env .both).2 = ⟨some [0x69, 0x86], none, none⟩ ∧ (s.step cfg env .both).1.review = none ∧
      (s.step cfg env .both).1.path = none := by
  have h : s.choose env (.blind digest msg) = s.reject (.blind digest msg) := by
    simp only [DDev.choose, hc]
  have := DDev.button_chosen (env := env) (v := .blind digest msg) hs (by rw [h]; rfl) (by rw [h]; simp [DDev.reject])
    (by rw [h]; rfl)
  simp only [DDev.step, hr, hrun, if_true]
  rw [this.1, this.2.2, h]
  exact ⟨rfl, this.2.1, rfl⟩

/-! ### Examples -/

section
open Demo

/-- A device whose upload area is as the code makes it, on either display. -/
def Demo.develNew (d : Display) : NewDevice := ⟨d, List.replicate uploadCapacity 0⟩

theorem Demo.develNew_upload (d : Display) : (develNew d).upload.length = uploadCapacity := List.length_replicate ..

/-- An environment in which hashing fails. -/
def Demo.noHash : Env := { fine with cr := { crypto with blake2b := fun _ _ => none } }

/-- The screens after each event, and what was answered. -/
def Demo.develSeen (d : Display) (es : List (Env × Event)) : List (Screen × Output) :=
  ((DDev.factory (develNew d)).trace walletApp es).map fun m => ((m.next walletApp).app.zui.screen, m.out)

/-- Blind signing on both displays: the pages of the hash, the approval, the reply. -/
example : ∀ d ∈ [Display.small, .large], (develSeen d (blind [1, 2, 3])).map Prod.fst =
      Screen.idle :: blindScreens d (hash 32 [1, 2, 3]) ++ [approveScreen, .idle] ∧
    (develSeen d (blind [1, 2, 3])).getLast?.bind (fun x => x.2.reply) = some (hash 32 [1, 2, 3] ++
      hash 64 (0 :: [0x8000002C, 0x800006C1].flatMap be32 ++ hash 32 [1, 2, 3]) ++ [0x90, 0x00]) := by
  decide +kernel

/-- The hypotheses of `C90_granted` after the first packet, on a device that has signed before. -/
example : let es := setup 1 ++ blind [9] ++ ok [apdu 0xF3 0 0 keyPath]
    (∀ e ∈ es, Good e.1 e.2) ∧ ((DDev.factory (develNew .small)).run bakingApp es).1.app.running = true ∧
    ((apdu 0xF3 0x81 0 [1, 2, 3]).develPacket bakingApp.build).map
      (fun k => (k.family, (feed (develSessionIn bakingApp ((DDev.factory (develNew .small)).trace bakingApp es)) k).2)) =
      some (.blindSign, some (0, UInt8.ofNat 2 :: [0x8000002C, 0x800006C1].flatMap be32, [1, 2, 3])) ∧
    Curve.ofByte 0 = some .ed25519 ∧ (hash 32 [1, 2, 3]).length = 32 := by
  refine ⟨?_, ?_, ?_, ?_, ?_⟩ <;> decide +kernel

/-- A review rejected. -/
example : let s := ((DDev.factory (develNew .small)).run walletApp (ok [apdu 0xF3 0 0 keyPath, apdu 0xF3 0x81 0 [1, 2, 3],
      .right, .right, .right])).1
    s.app.running = true ∧ s.review = some (.blind (hash 32 [1, 2, 3]) [1, 2, 3]) ∧ s.app.zui.chosen = .reject ∧
      s.app.zui.screen = rejectScreen ∧ (s.step walletApp fine .both).2 = ⟨some [0x69, 0x86], none, none⟩ := by
  refine ⟨?_, ?_, ?_, ?_, ?_⟩ <;> decide +kernel

/-- The hypothesis on the hash function of `C90_blind_signature` is needed: the key is replaced before the message is
hashed (rust/app/src/handlers/dev/blind_sign.rs 81-85), and the review that was pending stays. Here the user approves
the review of `[1, 2, 3]`, asked for with one key; it is signed with the key of a later request, which was refused. -/
theorem C90_hash_failure_swaps_key :
    ∃ es : List (Env × Event), (∀ e ∈ es, Good e.1 e.2) ∧
      (((DDev.factory (develNew .small)).trace walletApp es).map fun m => (m.out.reply, m.out.sig)) =
        [(some [0x90, 0x00], none), (none, none), (some [0x90, 0x00], none), (some [0x64, 0x00], none), (none, none),
          (none, none), (some (hash 32 [1, 2, 3] ++
            hash 64 (0 :: [0x8000002C, 0x800006C1, 0x80000000].flatMap be32 ++ hash 32 [1, 2, 3]) ++ [0x90, 0x00]),
            some ⟨.ed25519, [0x8000002C, 0x800006C1, 0x80000000], hash 32 [1, 2, 3], [1, 2, 3],
              hash 64 (0 :: [0x8000002C, 0x800006C1, 0x80000000].flatMap be32 ++ hash 32 [1, 2, 3])⟩)] ∧
      es.take 2 = ok [apdu 0xF3 0 0 keyPath, apdu 0xF3 0x81 0 [1, 2, 3]] := by
  refine ⟨ok [apdu 0xF3 0 0 keyPath, apdu 0xF3 0x81 0 [1, 2, 3]] ++ ok [apdu 0xF3 0 0 keyPath2] ++
    [(noHash, apdu 0xF3 0x81 0 [4, 5, 6])] ++ ok [.right, .right, .both], ?_, ?_, ?_⟩
  · decide +kernel
  · decide +kernel
  · rfl

end

end Tezos
