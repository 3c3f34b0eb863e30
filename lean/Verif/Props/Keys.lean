import Verif.Props.Watermarks
/-
The baking key along histories of the device, and where signatures come from: C09 to C12.
-/
set_option linter.unusedSimpArgs false
namespace Tezos
open Spec (Item consensusItem isConsensusMagic)

theorem Dev.trace_append (cfg : Config) (s : Dev) (a b : List (Env × Event)) :
    s.trace cfg (a ++ b) = s.trace cfg a ++ (s.run cfg a).1.trace cfg b := by
  induction a generalizing s with
  | nil => rfl
  | cons x xs ih =>
    simp only [List.cons_append, Dev.trace, Dev.run, List.cons.injEq, true_and]
    exact ih _

/-! ### The key record -/

/-- What approving a review does to the authorized key: `some (some k)` makes it `k`, `some none` removes it. -/
def View.keyChange : View → Option (Option PathAndCurve)
  | .authorize k _ => some (some k)
  | .setup k _ _ _ _ => some (some k)
  | .deauthorize _ => some none
  | _ => none

/-- The key record written for it. -/
def keyBytes : Option PathAndCurve → Bytes
  | some k => k.encode
  | none => PathAndCurve.empty

/-- What one event does to the key record. -/
inductive KeyStep (s : Dev) (ev : Event) (out : Output) (c c' : Cell) : Prop where
  | same (hc : c' = c) (hn : ∀ v, Approves s ev v → v.keyChange = none)
  | change (v : View) (ha : Approves s ev v) (o : Option PathAndCurve) (ho : v.keyChange = some o)
      (hc : c' = c ∨ c' = .val (keyBytes o) ∨ c' = .broken)
      (hr : ∀ d, out.reply = some (d ++ [0x90, 0x00]) → c' = .val (keyBytes o))

theorem keyBytes_length {o : Option PathAndCurve} (h : ∀ k, o = some k → k.path.length ≤ 10) :
    (keyBytes o).length = slotSize := by
  cases o with
  | none => rfl
  | some k => exact PathAndCurve.encode_length (h k rfl)

theorem View.accept_key_same (env : Env) (v : View) (s : Dev) (h : v.keyChange = none) :
    (v.accept env s).st.key = s.key := by
  cases v with
  | sign hh d p m =>
    cases View.accept_sign env hh d p m s with
    | bad hst _ => rw [hst]
    | done _ _ _ _ _ hr => rw [hr]
  | bakingSign hh d b o m =>
    rcases s.bakingSign_cases env hh d m with hf | ⟨k, sig, _, _, hre⟩
    · exact congrArg Dev.key hf.1
    · exact congrArg (fun r => r.st.key) hre
  | addr a k w => rw [(View.accept_addr env a k w s).1]
  | query k a w => rw [(View.accept_query env k a w s).1]
  | authorize k a => cases h
  | deauthorize a => cases h
  | setup k a m t ch => cases h

/-- Approving a key change leaves the record alone, or writes it; if it ends well it wrote it. -/
theorem View.accept_key_change (env : Env) (v : View) (s : Dev) {o : Option PathAndCurve} (h : v.keyChange = some o) :
    ((v.accept env s).st.key = s.key ∧ (v.accept env s).Bad) ∨
    ((v.accept env s).st.key = (s.key.write env.keyF (keyBytes o)).1 ∧
      ((v.accept env s).Bad ∨ (s.key.write env.keyF (keyBytes o)).2 = .ok)) := by
  cases v with
  | authorize k a =>
    cases h
    cases View.accept_authorize env k a s with
    | none hst hb => exact .inl ⟨by rw [hst], hb⟩
    | key _ hst hb => exact .inr ⟨by rw [hst]; rfl, .inl hb⟩
    | done hw hst _ _ => exact .inr ⟨by rw [hst]; rfl, .inr hw⟩
  | deauthorize a =>
    cases h
    cases View.accept_deauthorize env a s with
    | key _ hst hb => exact .inr ⟨by rw [hst]; rfl, .inl hb⟩
    | done hw hst _ _ => exact .inr ⟨by rw [hst]; rfl, .inr hw⟩
  | setup k a m t ch =>
    cases h
    cases View.accept_setup env k a m t ch s with
    | none hst hb => exact .inl ⟨by rw [hst], hb⟩
    | key _ hst hb => exact .inr ⟨by rw [hst]; rfl, .inl hb⟩
    | main hk _ hst _ => exact .inr ⟨by rw [hst]; rfl, .inr hk⟩
    | test hk _ _ hst _ => exact .inr ⟨by rw [hst]; rfl, .inr hk⟩
    | chain hk _ _ hst _ => exact .inr ⟨by rw [hst]; rfl, .inr hk⟩
  | _ => cases h

theorem Dev.exec_key (cfg : Config) (env : Env) (c : Cmd) (p1 p2 : UInt8) (payload : Option Bytes) (s : Dev) :
    (s.exec cfg env c p1 p2 payload).st.key = s.key := by
  cases s.exec_cases cfg env c p1 p2 payload with
  | still p u hs _ => rw [hs.1]; rfl
  | opened v p u u' ho hout hs hst _ => rw [hst]; exact ((s.withUpload p u).show_flash env v).key
  | reset p hc hp hl hr =>
    rw [hr]
    cases s.resetHwm_cases env (u32OfBe (p.take 4)) with
    | main _ hst _ => rw [hst]
    | test _ _ hst _ => rw [hst]
    | chain _ _ hst _ => rw [hst]
    | init _ _ _ hst _ => rw [hst]
  | auto hh u u' q2 first m ref k digest hc hu hcv hp hk hd hmg hout hs hst =>
    rw [hst]
    rcases (s.withUpload s.path u).autoSign_cases env hh digest m (specDecide m)
      (fun _ _ => specDecide_error) with hfa | ⟨b, w, hb, hdec, hfa | ⟨_, _, _, _, _, hre⟩⟩
    · simp only [hfa.1]; rfl
    · simp only [hfa.1]; rfl
    · simp only [hre]; rfl

theorem Approves.unique {s : Dev} {ev : Event} {v w : View} (h1 : Approves s ev v) (h2 : Approves s ev w) : v = w := by
  have := h1.view
  rw [h2.view] at this
  exact (Option.some.inj this).symm

theorem Dev.step_key {cfg : Config} {env : Env} {ev : Event} {s : Dev} {n : Nat} {c : Cell}
    (hok : s.Ok) (h : s.key.Holds1 n c) (hf : env.keyF.Detected) (hn : n + 1 < 2 ^ 64) :
    ∃ c', (s.step cfg env ev).1.key.Holds1 (n + 1) c' ∧ KeyStep s ev (s.step cfg env ev).2 c c' := by
  have hmono : s.key.Holds1 (n + 1) c := h.mono (by omega)
  by_cases hex : ∃ v, Approves s ev v
  · obtain ⟨v, ha⟩ := hex
    obtain ⟨hfl, _, hrep⟩ := ha.step (cfg := cfg) env
    cases hv : v.keyChange with
    | none =>
      refine ⟨c, ?_, .same rfl fun w hw => by rw [← ha.unique hw]; exact hv⟩
      rw [hfl.key, View.accept_key_same _ _ _ hv]
      exact hmono
    | some o =>
      have hlen : (keyBytes o).length = slotSize := by
        apply keyBytes_length
        intro k hk
        subst hk
        have hvo := hok v ha.view
        cases v with
        | authorize k' a => cases hv; exact hvo.2
        | setup k' a m t ch => cases hv; exact hvo.2
        | _ => cases hv
      rcases View.accept_key_change env v s.idle hv with ⟨hk, hb⟩ | ⟨hk, hb⟩
      · refine ⟨c, by rw [hfl.key, hk]; exact hmono, .change v ha o hv (.inl rfl) fun d hd => ?_⟩
        rw [hrep] at hd
        exact absurd hd (hb.reply d)
      · obtain ⟨c', h1, h2⟩ := h.write (b := keyBytes o) hn hlen hf
        refine ⟨c', by rw [hfl.key, hk]; exact h1, .change v ha o hv h2.cases fun d hd => ?_⟩
        rw [hrep] at hd
        rcases hb with hb | hb
        · exact absurd hd (hb.reply d)
        · rcases h2 with ⟨_, h2⟩ | ⟨h2, _⟩
          · exact h2
          · exact absurd hb h2
  · have hn' : ∀ v, Approves s ev v → v.keyChange = none := fun v hv => absurd ⟨v, hv⟩ hex
    refine ⟨c, ?_, .same rfl hn'⟩
    cases s.step_cases cfg env ev with
    | still hfl _ => rw [hfl.key]; exact hmono
    | relaunch hfl _ _ => rw [hfl.key]; exact hmono.relaunch
    | accept v ha _ _ _ => exact absurd ⟨v, ha⟩ hex
    | command buf rx cmd hrec he =>
      have hfl := (s.exec cfg env cmd (buf.getD 2 0) (buf.getD 3 0) (apduPayload buf)).deliver_flash
      rw [he] at hfl
      rw [hfl.key, Dev.exec_key]
      exact hmono

/-- The key in a record. -/
def Cell.key : Cell → Option PathAndCurve
  | .val b => match PathAndCurve.tryFromBytes b with
    | .ok k => k
    | .error _ => none
  | _ => none

theorem Store.Holds1.storedKey {s : Dev} {n : Nat} {c : Cell} (h : s.key.Holds1 n c) : s.storedKey = c.key := by
  have hr := h.read
  unfold Dev.storedKey
  cases c with
  | blank => rw [(hr : _ = _)]; rfl
  | val b => rw [(hr : _ = _)]; rfl
  | broken => rcases (hr : _ ∨ _) with hr | hr <;> rw [hr] <;> rfl

/-- The event is an approval that makes `o` the authorized key. -/
def Approved (m : Moment) (o : Option PathAndCurve) : Prop := ∃ v, Approves m.st m.ev v ∧ v.keyChange = some o

/-- The event is an approval that makes `o` the authorized key, answered with success. -/
def Changed (m : Moment) (o : Option PathAndCurve) : Prop :=
  Approved m o ∧ ∃ d, m.out.reply = some (d ++ [0x90, 0x00])

/-- The key `k` was approved in the history `past` and every approved change of the key since then was answered with
an error or cut short. -/
def InForce (past : List Moment) (k : PathAndCurve) : Prop :=
  ∃ a m b, past = a ++ m :: b ∧ Approved m (some k) ∧ ∀ m' ∈ b, ∀ o, ¬ Changed m' o

theorem InForce.snoc {past : List Moment} {k : PathAndCurve} {m : Moment} (h : InForce past k)
    (hm : ∀ o, ¬ Changed m o) : InForce (past ++ [m]) k := by
  obtain ⟨a, m0, b, rfl, ha, hb⟩ := h
  refine ⟨a, m0, b ++ [m], by simp, ha, ?_⟩
  intro m' hm' o
  rcases List.mem_append.mp hm' with h | h
  · exact hb m' h o
  · rw [List.mem_singleton.mp h]
    exact hm o

theorem list_snoc_induction {α : Type} {P : List α → Prop} (nil : P []) (snoc : ∀ l x, P l → P (l ++ [x])) (l : List α) :
    P l := by
  have : ∀ r : List α, P r.reverse := by
    intro r
    induction r with
    | nil => exact nil
    | cons x xs ih => rw [List.reverse_cons]; exact snoc _ _ ih
  rw [← List.reverse_reverse l]
  exact this _

/-- The key record of a device holds the key in force. -/
theorem history_key {cfg : Config} {new : NewDevice} {es : List (Env × Event)} (hes : ∀ e ∈ es, e.1.keyF.Detected)
    (hlen : es.length < 2 ^ 64) :
    ∃ c, ((Dev.factory new).run cfg es).1.key.Holds1 es.length c ∧
      ∀ k, c.key = some k → InForce ((Dev.factory new).trace cfg es) k := by
  induction es using list_snoc_induction with
  | nil => exact ⟨.blank, Store.Holds1.fresh, fun k hk => by cases hk⟩
  | snoc es e ih =>
    simp only [List.length_append, List.length_singleton] at hlen
    obtain ⟨c, h, hk⟩ := ih (fun e he => hes e (by simp [he])) (by omega)
    have hok : ((Dev.factory new).run cfg es).1.Ok := (Dev.Ok.factory new).run
    rw [Dev.run_append, Dev.trace_append]
    generalize hs : ((Dev.factory new).run cfg es).1 = s at *
    obtain ⟨env, ev⟩ := e
    obtain ⟨c', h', hstep⟩ := s.step_key (cfg := cfg) (ev := ev) hok h (hes (env, ev) (by simp)) (by omega)
    refine ⟨c', by simpa [Dev.run] using h', ?_⟩
    intro k hck
    simp only [Dev.trace]
    cases hstep with
    | same hc hn =>
      rw [hc] at hck
      refine (hk k hck).snoc fun o ho => ?_
      obtain ⟨⟨v, ha, hv⟩, _⟩ := ho
      rw [hn v ha] at hv
      cases hv
    | change v ha o ho hc hr =>
      have hnew : c' = .val (keyBytes o) → Approved ⟨s, env, ev, (s.step cfg env ev).2⟩ (some k) := by
        intro hc'
        rw [hc'] at hck
        refine ⟨v, ha, ?_⟩
        cases o with
        | none => cases hck
        | some k' =>
          have hvo := hok v ha.view
          have hkk : 1 ≤ k'.path.length ∧ k'.path.length ≤ 10 := by
            cases v with
            | authorize k' a => cases ho; exact hvo
            | setup k' a m t ch => cases ho; exact hvo
            | _ => cases ho
          simp only [Cell.key, keyBytes, PathAndCurve.tryFromBytes_encode hkk.1 hkk.2] at hck
          rw [ho, hck]
      by_cases hsucc : ∃ d, (s.step cfg env ev).2.reply = some (d ++ [0x90, 0x00])
      · obtain ⟨d, hd⟩ := hsucc
        exact ⟨_, _, [], rfl, hnew (hr d hd), by simp⟩
      · rcases hc with rfl | hc | rfl
        · exact (hk k hck).snoc fun o ho => hsucc ho.2
        · exact ⟨_, _, [], rfl, hnew hc, by simp⟩
        · cases hck

/-! ### C09, C10 -/

/-- The signature is one of the baking kind: of a consensus message, or of an approved delegation or reveal review of
the baking commands. -/
def BakingSignature (m : Moment) (x : SigRec) : Prop :=
  m.out.sig = some x ∧
    (isConsensusMagic x.msg = true ∨ ∃ h d b o msg, Approves m.st m.ev (.bakingSign h d b o msg))

theorem BakingSignature.key {cfg : Config} {m : Moment} {x : SigRec} (h : BakingSignature m x) (hok : m.st.Ok)
    (hout : m.out = (m.st.step cfg m.env m.ev).2) :
    m.st.storedKey = some ⟨x.curve, x.path⟩ ∧ m.env.cr.sign x.curve x.path x.digest = some x.sig := by
  obtain ⟨hx, hb⟩ := h
  rw [hout] at hx
  cases Dev.step_signed hx with
  | review h p ha hp _ _ _ =>
    rcases hb with hb | ⟨_, _, _, _, _, ha'⟩
    · have h3 := hok _ ha.view
      unfold isConsensusMagic at hb
      rcases (h3 : _ ∨ _) with h3 | h3 <;> rw [h3] at hb <;> cases hb
    · cases ha.unique ha'
  | delegation h br op ha hk hs _ _ => exact ⟨hk, hs⟩
  | consensus h buf rx hrec u q2 first ref hu hcv hp hk hd hs => exact ⟨hk, hs⟩

/-- C09: every baking signature along a history is made with the curve and path in the key record, which a restart
would read back, and that key is the one of the latest approved authorization or setup: the user approved it earlier in
the history, and no approved authorization, setup or de-authorization since then was answered with success. -/
theorem C09_only_authorized_key (cfg : Config) (new : NewDevice) (es : List (Env × Event))
    (hes : ∀ e ∈ es, e.1.keyF.Detected) (hlen : es.length < 2 ^ 64) (past rest : List Moment) (m : Moment)
    (h : (Dev.factory new).trace cfg es = past ++ m :: rest) (x : SigRec) (hx : BakingSignature m x) :
    m.env.cr.sign x.curve x.path x.digest = some x.sig ∧
    m.st.storedKey = some ⟨x.curve, x.path⟩ ∧ m.st.relaunch.storedKey = some ⟨x.curve, x.path⟩ ∧
    InForce past ⟨x.curve, x.path⟩ := by
  obtain ⟨ea, eb, rfl, hla, rfl, hst, ho, _⟩ := Dev.trace_split h
  simp only [List.length_append, List.length_cons] at hlen
  obtain ⟨c, hc, hk⟩ := history_key (cfg := cfg) (new := new) (es := ea) (fun e he => hes e (by simp [he]))
    (by omega)
  rw [← hst] at hc
  have hok : m.st.Ok := by rw [hst]; exact (Dev.Ok.factory new).run
  obtain ⟨h1, h2⟩ := hx.key hok ho
  have h3 := hc.storedKey
  have h4 : m.st.relaunch.storedKey = c.key := Store.Holds1.storedKey (s := m.st.relaunch) hc.relaunch
  exact ⟨h2, h1, by rw [h4, ← h3, h1], hk _ (by rw [← h3, h1])⟩

theorem two_splits {α : Type} {a b a' b' : List α} {x y : α} (h : a ++ x :: b = a' ++ y :: b') :
    y ∈ b ∨ x = y ∨ x ∈ b' := by
  induction a generalizing a' with
  | nil =>
    cases a' with
    | nil => simp only [List.nil_append, List.cons.injEq] at h; exact .inr (.inl h.1)
    | cons z zs =>
      simp only [List.nil_append, List.cons_append, List.cons.injEq] at h
      left
      rw [h.2]
      simp
  | cons z zs ih =>
    cases a' with
    | nil =>
      simp only [List.nil_append, List.cons_append, List.cons.injEq] at h
      right; right
      rw [← h.2]
      simp
    | cons w ws =>
      simp only [List.cons_append, List.cons.injEq] at h
      exact ih h.2

/-- C10: after an approved de-authorization that was answered with success, a baking signature is only given out once
the user has approved an authorization or setup of the key it is made with. -/
theorem C10_deauthorization_effective (cfg : Config) (new : NewDevice) (es : List (Env × Event))
    (hes : ∀ e ∈ es, e.1.keyF.Detected) (hlen : es.length < 2 ^ 64) (a b c : List Moment) (m1 m2 : Moment)
    (h : (Dev.factory new).trace cfg es = a ++ m1 :: (b ++ m2 :: c)) (hd : Changed m1 none) (x : SigRec)
    (hx : BakingSignature m2 x) : ∃ m ∈ b, Approved m (some ⟨x.curve, x.path⟩) := by
  have h' : (Dev.factory new).trace cfg es = (a ++ m1 :: b) ++ m2 :: c := by rw [h]; simp
  obtain ⟨_, _, _, a', m0, b', hp, ha, hn⟩ := C09_only_authorized_key cfg new es hes hlen _ _ m2 h' x hx
  rcases two_splits hp with h | h | h
  · exact ⟨m0, h, ha⟩
  · subst h
    obtain ⟨⟨v, hv, e1⟩, _⟩ := hd
    obtain ⟨w, hw, e2⟩ := ha
    cases hv.unique hw
    rw [e1] at e2
    cases e2
  · exact absurd hd (hn m1 h none)

/-! ### C11, C12 -/

/-- The pending review was opened earlier in the history and has been pending since. -/
theorem view_origin {cfg : Config} {new : NewDevice} {es : List (Env × Event)} {v : View}
    (hv : ((Dev.factory new).run cfg es).1.view = some v) :
    ∃ a m b, (Dev.factory new).trace cfg es = a ++ m :: b ∧ OpensAt cfg m.env m.st m.ev v (m.next cfg) ∧
      ∀ m' ∈ b, m'.st.view = some v := by
  induction es using list_snoc_induction with
  | nil => cases hv
  | snoc es e ih =>
    obtain ⟨env, ev⟩ := e
    rw [Dev.run_append] at hv
    rw [Dev.trace_append]
    simp only [Dev.run, Dev.trace] at hv ⊢
    generalize hs : ((Dev.factory new).run cfg es).1 = s at *
    rcases s.step_view cfg env ev with h | h | ⟨w, hw⟩
    · rw [h] at hv
      obtain ⟨a, m, b, he, ho, hp⟩ := ih hv
      refine ⟨a, m, b ++ [_], by rw [he]; simp; rfl, ho, ?_⟩
      intro m' hm'
      rcases List.mem_append.mp hm' with h' | h'
      · exact hp m' h'
      · rw [List.mem_singleton.mp h']
        exact hv
    · rw [h] at hv
      cases hv
    · have : w = v := by
        have := hw.view
        rw [hv] at this
        exact (Option.some.inj this).symm
      subst this
      exact ⟨_, ⟨s, env, ev, (s.step cfg env ev).2⟩, [], rfl, hw, by simp⟩

/-- The digest and message a review asks the user to sign. -/
def View.signs : View → Option (Bytes × Bytes)
  | .sign _ d _ m => some (d, m)
  | .bakingSign _ d _ _ m => some (d, m)
  | _ => none

/-- The instruction codes of the signing commands of each build. -/
def signingIns : Build → List UInt8
  | .baking => [0x04, 0x0F, 0xAF, 0x12]
  | .wallet => [0x04, 0x05, 0x0F, 0x12]

theorem command_signing {b : Build} {ins : UInt8} {h : Bool}
    (hc : command b ins = some (.sign h) ∨ command b ins = some (.bakerSign h)) : ins ∈ signingIns b := by
  have : ∀ n : Fin 256, ∀ h : Bool, (command b (UInt8.ofNat n) = some (.sign h) ∨
      command b (UInt8.ofNat n) = some (.bakerSign h)) → UInt8.ofNat n ∈ signingIns b := by
    cases b <;> decide +kernel
  exact forall_u8 (P := fun ins => ∀ h : Bool, (command b ins = some (.sign h) ∨
      command b ins = some (.bakerSign h)) → ins ∈ signingIns b) this ins h hc

theorem command_bakerSign {b : Build} {ins : UInt8} {h : Bool} (hc : command b ins = some (.bakerSign h)) :
    b = .baking := by
  have : ∀ n : Fin 256, ∀ h : Bool, command b (UInt8.ofNat n) = some (.bakerSign h) → b = .baking := by
    cases b <;> decide +kernel
  exact forall_u8 (P := fun ins => ∀ h : Bool, command b ins = some (.bakerSign h) → b = .baking) this ins h hc

/-- C11: along every history of either build, a signature is of a consensus message in the baking build, or is given
out when the user approves a review of exactly the signed message, which an earlier command with one of the signing
instruction codes opened and which has been pending since. -/
theorem C11_user_approves (cfg : Config) (new : NewDevice) (es : List (Env × Event)) (past rest : List Moment)
    (m : Moment) (h : (Dev.factory new).trace cfg es = past ++ m :: rest) (x : SigRec) (hx : m.out.sig = some x) :
    (cfg.build = .baking ∧ isConsensusMagic x.msg = true) ∨
    ∃ v a m0 b, Approves m.st m.ev v ∧ v.signs = some (x.digest, x.msg) ∧ past = a ++ m0 :: b ∧
      (∃ buf rx ins, m0.ev = .apdu buf rx ∧ buf[1]? = some ins ∧ ins ∈ signingIns cfg.build) ∧
      (m0.next cfg).view = some v ∧ (m0.env.cr.blake2b 32 x.msg = some x.digest) ∧ ∀ m' ∈ b, m'.st.view = some v := by
  obtain ⟨ea, eb, rfl, hla, rfl, hst, ho, _⟩ := Dev.trace_split h
  rw [ho] at hx
  have origin : ∀ v, Approves m.st m.ev v → v.signs = some (x.digest, x.msg) →
      ∃ v a m0 b, Approves m.st m.ev v ∧ v.signs = some (x.digest, x.msg) ∧
      (Dev.factory new).trace cfg ea = a ++ m0 :: b ∧
      (∃ buf rx ins, m0.ev = .apdu buf rx ∧ buf[1]? = some ins ∧ ins ∈ signingIns cfg.build) ∧
      (m0.next cfg).view = some v ∧ (m0.env.cr.blake2b 32 x.msg = some x.digest) ∧
      ∀ m' ∈ b, m'.st.view = some v := by
    intro v ha hv
    obtain ⟨a, m0, b, he, hop, hp⟩ := view_origin (v := v) (by rw [← hst]; exact ha.view)
    refine ⟨v, a, m0, b, ha, hv, he, ?_, hop.view, ?_, hp⟩
    · obtain ⟨buf, rx, c, p, u, hrec, hopens, _⟩ := hop.ex
      obtain ⟨ins, hi, hc⟩ := hrec.cmd
      refine ⟨buf, rx, ins, hrec.ev, hi, ?_⟩
      cases hopens with
      | operation => exact command_signing (.inl hc)
      | michelson => exact command_signing (.inl hc)
      | baking => exact command_signing (.inr hc)
      | _ => cases hv
    · obtain ⟨buf, rx, c, p, u, hrec, hopens, _⟩ := hop.ex
      have hh := hopens.hashed
      cases v with
      | sign => cases hv; exact hh
      | bakingSign => cases hv; exact hh
      | _ => cases hv
  cases Dev.step_signed hx with
  | review hh p ha _ _ _ _ => exact .inr (origin _ ha rfl)
  | delegation hh br op ha _ _ _ _ => exact .inr (origin _ ha rfl)
  | consensus hh buf rx hrec u q2 first ref hu hcv hp hk hd hs hr b it hb hi =>
    obtain ⟨ins, _, hc⟩ := hrec.cmd
    exact .inl ⟨command_bakerSign hc, consensusItem_magic hi⟩

/-- A command that asks the user to sign with a key of the host's choice, as received: instruction 0x12 in both
builds, 0x04, 0x05 and 0x0F in the wallet build. -/
structure GenericSign (cfg : Config) (s : Dev) (ev : Event) (buf : Bytes) (rx : Nat) : Prop where
  ev : ev = .apdu buf rx
  running : s.running = true
  len : 5 ≤ rx ∧ rx ≤ buf.length
  cla : buf[0]? = some 0x80
  ins : buf[1]? = some 0x12 ∨
    (cfg.build = .wallet ∧ (buf[1]? = some 0x04 ∨ buf[1]? = some 0x05 ∨ buf[1]? = some 0x0F))

theorem GenericSign.received {cfg : Config} {s : Dev} {ev : Event} {buf : Bytes} {rx : Nat}
    (h : GenericSign cfg s ev buf rx) : ∃ hh, Received cfg s ev buf rx (.sign hh) := by
  obtain ⟨h1, h2, h3, h4, h5⟩ := h
  rcases h5 with h5 | ⟨hb, h5 | h5 | h5⟩
  · refine ⟨true, h1, h2, h3, h4, _, h5, ?_⟩
    cases cfg.build <;> rfl
  · exact ⟨false, h1, h2, h3, h4, _, h5, by rw [hb]; rfl⟩
  · exact ⟨false, h1, h2, h3, h4, _, h5, by rw [hb]; rfl⟩
  · exact ⟨true, h1, h2, h3, h4, _, h5, by rw [hb]; rfl⟩

theorem Dev.startSign_other {env : Env} {h : Bool} {q2 : UInt8} {first data : Bytes} {ref : MemRef} {s : Dev}
    (h3 : data[0]? ≠ some 0x03) (h5 : data[0]? ≠ some 0x05) :
    ∃ e, e ≠ .success ∧ (s.startSign env h q2 first data ref).out = .err e ∧
      (s.startSign env h q2 first data ref).sig = none ∧
      (s.startSign env h q2 first data ref).st.view = s.view ∧
      SameFlash s (s.startSign env h q2 first data ref).st := by
  have fail : ∀ (t : Dev) (e : ApduError), e ≠ .success → t.view = s.view → SameFlash s t →
      ∃ e', e' ≠ .success ∧ (t.fail e).out = .err e' ∧ (t.fail e).sig = none ∧ (t.fail e).st.view = s.view ∧
        SameFlash s (t.fail e).st := fun t e he hv hf => ⟨e, he, rfl, rfl, hv, hf⟩
  unfold Dev.startSign Dev.withPath
  split
  · exact fail s _ (by decide) rfl (.refl s)
  · dsimp only
    split
    · exact fail s _ (by decide) rfl (.refl s)
    · rename_i path hp
      split
      · exact fail _ _ (by decide) rfl ⟨rfl, rfl, rfl, rfl⟩
      · split
        · rename_i hpr
          exact absurd hpr (by
            unfold Preamble.parse nU8
            cases data with
            | nil => simp [bind, Except.bind]
            | cons b r =>
              simp only [bind, Except.bind]
              repeat' split
              all_goals simp)
        · exact fail _ _ (by decide) rfl ⟨rfl, rfl, rfl, rfl⟩
        · rename_i hpr
          obtain ⟨b, rfl, hb⟩ := preamble_parse_ok hpr
          simp at hb h3
          exact absurd hb h3
        · rename_i hpr
          obtain ⟨b, rfl, hb⟩ := preamble_parse_ok hpr
          simp at hb h5
          exact absurd hb h5
        · exact fail _ _ (by decide) rfl ⟨rfl, rfl, rfl, rfl⟩

/-- C12, refusal: whatever the state, when a generic signing command completes the upload of a message whose first byte
is neither 0x03 nor 0x05 (or of an empty one), the reply is an error status, nothing is signed and no review is
opened. -/
theorem C12_other_messages_refused (cfg : Config) (env : Env) (s : Dev) (ev : Event) (buf : Bytes) (rx : Nat)
    (hc : GenericSign cfg s ev buf rx) (u : Upl) (q2 : UInt8) (first data : Bytes) (ref : MemRef)
    (hu : Completes env s .sign (buf.getD 2 0) (buf.getD 3 0) (apduPayload buf) u q2 first data ref)
    (h3 : data[0]? ≠ some 0x03) (h5 : data[0]? ≠ some 0x05) :
    let r := s.step cfg env ev
    (∃ e, e ≠ .success ∧ r.2 = ⟨some (statusWord e), none, none⟩) ∧ r.1.view = s.view ∧ SameFlash s r.1 := by
  obtain ⟨hh, hrec⟩ := hc.received
  dsimp only
  rw [hrec.step env]
  simp only [Dev.exec, Dev.cmdUpload, hu.eq]
  obtain ⟨e, he, hout, hsig, hview, hfl⟩ := Dev.startSign_other (env := env) (h := hh) (q2 := q2) (first := first)
    (ref := ref) (s := { s with upl := u }) h3 h5
  simp only [Res.deliver, hout]
  exact ⟨⟨e, he, rfl⟩, hview, hfl.1, hfl.2, hfl.3, hfl.4⟩

/-- C12, reviews: whatever the state, the message of a review opened by a generic signing command starts with 0x03 or
0x05; so what approving it signs is not a consensus message. -/
theorem C12_reviews_are_operations (cfg : Config) (m : Moment) (buf : Bytes) (rx : Nat)
    (hc : GenericSign cfg m.st m.ev buf rx) (v : View) (hv : (m.next cfg).view = some v) (hn : m.st.view ≠ some v) :
    ∃ d msg, v.signs = some (d, msg) ∧ (msg[0]? = some 0x03 ∨ msg[0]? = some 0x05) ∧ isConsensusMagic msg = false := by
  obtain ⟨hh, hrec⟩ := hc.received
  rcases m.st.step_view cfg m.env m.ev with h' | h' | ⟨w, hw⟩
  · rw [show (m.next cfg).view = m.st.view from h'] at hv
    exact absurd hv hn
  · rw [show (m.next cfg).view = none from h'] at hv
    cases hv
  · have hwv : (m.next cfg).view = some w := hw.view
    rw [hv] at hwv
    cases hwv
    obtain ⟨buf', rx', c, p, u, hrec', ho, _⟩ := hw.ex
    have hcc : c = .sign hh := by
      have := hrec.ev
      rw [hrec'.ev] at this
      cases this
      obtain ⟨i1, e1, c1⟩ := hrec.cmd
      obtain ⟨i2, e2, c2⟩ := hrec'.cmd
      rw [e1] at e2
      cases e2
      rw [c1] at c2
      exact (Option.some.inj c2).symm
    subst hcc
    cases ho with
    | operation => exact ⟨_, _, rfl, .inl rfl, rfl⟩
    | michelson => exact ⟨_, _, rfl, .inr rfl, rfl⟩
    | addr hcmd => rcases hcmd with h | ⟨h, _⟩ <;> cases h

/-! ### Concrete histories -/

namespace Demo

/-- Setup, a block, de-authorization, a block (refused), authorization, a block, an approved delegation. -/
def keyHistory : List (Env × Event) :=
  setup 5 ++ sign (emmyBlock 7) ++ deauthorize ++ sign (emmyBlock 8) ++ authorize ++ sign (emmyBlock 9) ++
  signReview 0x04 delegation 11

/-- An event of a history: the key change it approves, the end of the reply, and whether a signature was given out. -/
def keySummary (cfg : Config) (es : List (Env × Event)) (i : Nat) :
    Option (Option (Option PathAndCurve) × Option Bytes × Option (Curve × Path × Bool)) :=
  (fresh.trace cfg es)[i]?.map fun m =>
    ((approved m.st m.ev).bind View.keyChange, m.out.reply.map (fun r => r.drop (r.length - 2)),
      m.out.sig.map fun x => (x.curve, x.path, isConsensusMagic x.msg))

def key1 : PathAndCurve := ⟨.ed25519, [0x8000002c, 0x800006c1]⟩

theorem keyHistory_detected : ∀ e ∈ keyHistory, e.1.keyF.Detected := by decide +kernel

set_option synthInstance.maxSize 1000 in
set_option maxRecDepth 100000 in
/-- The events of `keyHistory` that C09 and C10 speak about: the approved setup (7), a block signed with its key (9),
the approved de-authorization (14), the refused block (16), the approved authorization (21), a signed block (23) and
the signed delegation (37). -/
example :
    [7, 9, 14, 16, 21, 23, 37].map (keySummary bakingApp keyHistory) =
      [some (some (some key1), some [0x90, 0x00], none),
       some (none, some [0x90, 0x00], some (key1.curve, key1.path, true)),
       some (some none, some [0x90, 0x00], none),
       some (none, some [0x69, 0x85], none),
       some (some (some key1), some [0x90, 0x00], none),
       some (none, some [0x90, 0x00], some (key1.curve, key1.path, true)),
       some (none, some [0x90, 0x00], some (key1.curve, key1.path, false))] := by
  decide +kernel

set_option maxRecDepth 100000 in
/-- The hypotheses of C10 (hence those of C09) hold for the events 14 and 23 of `keyHistory`. -/
example : ∃ a b c m1 m2 x, (Dev.factory ⟨.small, []⟩).trace bakingApp keyHistory = a ++ m1 :: (b ++ m2 :: c) ∧
    Changed m1 none ∧ BakingSignature m2 x := by
  obtain ⟨m1, m2, h1, h2, h⟩ := two_moments (es := keyHistory) (i := 14) (j := 23)
    (P := fun m1 m2 => decide ((approved m1.st m1.ev).bind View.keyChange = some none ∧
      m1.out.reply = some [0x90, 0x00] ∧ m2.out.sig.map (fun x => isConsensusMagic x.msg) = some true))
    (by decide +kernel)
  simp only [decide_eq_true_eq] at h
  obtain ⟨ha, hr, hs⟩ := h
  obtain ⟨v, hv, hk⟩ := Option.bind_eq_some_iff.mp ha
  obtain ⟨x, hx, hm⟩ := Option.map_eq_some_iff.mp hs
  exact ⟨_, _, _, m1, m2, x, split_at h1 h2 (by omega), ⟨⟨v, (approved_iff _ _ _).mp hv, hk⟩, [], hr⟩, hx, .inl hm⟩

set_option maxRecDepth 100000 in
/-- C11 in the wallet build: the signing command opens the review, nothing is given out while its pages are turned,
and approving it gives out the signature. -/
example :
    let es := signReview 0x12 delegation 11
    ((List.range es.length).map fun i => ((fresh.trace walletApp es)[i]?.map fun m =>
      (m.st.view.isSome, (approved m.st m.ev).isSome, m.out.sig.isSome))) =
    [some (false, false, false), some (false, false, false)] ++ List.replicate 11 (some (true, false, false)) ++
      [some (true, true, true)] := by
  decide +kernel

set_option maxRecDepth 100000 in
/-- C12: a generic signing command completing the upload of a block, and of an operation, in both builds. -/
example : ∀ cfg ∈ [bakingApp, walletApp],
    ((fresh.run cfg (ok [apdu 0x12 0 0 keyPath, apdu 0x12 0x81 0 (emmyBlock 7)])).2.map Output.reply =
      [some [0x90, 0x00], some [0x69, 0x86]]) ∧
    (fresh.run cfg (ok [apdu 0x12 0 0 keyPath, apdu 0x12 0x81 0 delegation])).1.view.isSome := by
  decide +kernel

set_option maxRecDepth 100000 in
/-- The hypotheses of `C12_other_messages_refused`. -/
example : ∃ s ev buf rx u q2 first data ref, GenericSign walletApp s ev buf rx ∧
    Completes fine s .sign (buf.getD 2 0) (buf.getD 3 0) (apduPayload buf) u q2 first data ref ∧
    data[0]? = some 0x01 := by
  refine ⟨(fresh.run walletApp (ok [apdu 0x04 0 0 keyPath])).1, apdu 0x04 0x81 0 (emmyBlock 7), _, _,
    ((fresh.run walletApp (ok [apdu 0x04 0 0 keyPath])).1.upl.upload .done .done .sign 0x81 0 (some (emmyBlock 7))).1,
    0, keyPath, emmyBlock 7, ⟨false, 10, 92⟩,
    ⟨rfl, by decide +kernel, by decide +kernel, by decide +kernel, .inr ⟨rfl, .inl (by decide +kernel)⟩⟩,
    ⟨by decide +kernel⟩, by decide +kernel⟩

end Demo

end Tezos
