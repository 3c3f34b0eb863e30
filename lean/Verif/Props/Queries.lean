import Verif.Props.Manage
/-
C59: the commands that are answered at once: versions, public keys, addresses, the authorized key.
-/
set_option linter.unusedSimpArgs false
namespace Tezos
open Spec

/-- The curve code and the data of a command name a key by at most `n` path components. -/
structure Names (n : Nat) (p2 : UInt8) (data : Bytes) (k : PathAndCurve) : Prop where
  curve : p2 = curveCode k.curve
  path : data = UInt8.ofNat k.path.length :: k.path.flatMap be32
  short : 1 ≤ k.path.length ∧ k.path.length ≤ n

/-- The command is answered with data and 0x9000 exactly when `P` holds of the data, and has no other effect unless it
stops the app. -/
structure AnsweredWith (s : Dev) (r : Dev × Output) (P : Bytes → Prop) : Prop where
  data : ∀ d, r.2.reply = some (d ++ [0x90, 0x00]) ↔ P d
  only : r.2.reply.isSome = true → r = (s, ⟨r.2.reply, none, none⟩)

theorem Dev.ok_step (s : Dev) (b : Bytes) : (s.ok b).deliver = (s, ⟨some (b ++ [0x90, 0x00]), none, none⟩) := by
  have : statusWord .success = [0x90, 0x00] := by decide
  simp only [Dev.ok, Res.deliver, this]

theorem AnsweredWith.ok {s : Dev} {b : Bytes} {P : Bytes → Prop} (h : ∀ d, P d ↔ d = b) :
    AnsweredWith s (s.ok b).deliver P where
  data d := by
    rw [s.ok_step, h]
    constructor
    · intro e; exact (List.append_cancel_right (Option.some.inj e)).symm
    · rintro rfl; rfl
  only _ := by rw [s.ok_step]

theorem AnsweredWith.fail {s : Dev} {e : ApduError} (he : e ≠ .success) {P : Bytes → Prop} (h : ∀ d, ¬ P d) :
    AnsweredWith s (s.fail e).deliver P where
  data d := ⟨fun e' => absurd e' (Res.Bad.reply (Dev.fail_fails s e he).bad d), fun hp => absurd hp (h d)⟩
  only _ := rfl

theorem AnsweredWith.fault {s : Dev} {f : Fault} {P : Bytes → Prop} (h : ∀ d, ¬ P d) :
    AnsweredWith s (s.fault f).deliver P where
  data d := ⟨nofun, fun hp => absurd hp (h d)⟩
  only h := by cases h

theorem Names.of {n : Nat} {p2 : UInt8} {data : Bytes} {c : Curve} {p : Path} (hc : Curve.ofByte p2 = some c)
    (hp : Path.read n data = .ok p) : Names n p2 data ⟨c, p⟩ :=
  have h := Path.read_ok.mp hp
  ⟨curveCode_of hc, h.2.2.2, h.1, h.2.1⟩

theorem curveCode_ofByte (c : Curve) : Curve.ofByte (curveCode c) = some c := by cases c <;> rfl

theorem Names.read {n : Nat} {p2 : UInt8} {data : Bytes} {k : PathAndCurve} (h : Names n p2 data k) (hn : n < 256) :
    Curve.ofByte p2 = some k.curve ∧ Path.read n data = .ok k.path :=
  ⟨by rw [h.curve]; exact curveCode_ofByte _, Path.read_ok.mpr ⟨h.short.1, h.short.2, by have := h.short.2; omega, h.path⟩⟩

/-- A command names at most one key. -/
theorem Names.unique {n : Nat} {p2 : UInt8} {data : Bytes} {k k' : PathAndCurve} (hn : n < 256) (h : Names n p2 data k)
    (h' : Names n p2 data k') : k = k' := by
  obtain ⟨c, p⟩ := k
  obtain ⟨c', p'⟩ := k'
  have h1 := (h.read hn).1.symm.trans (h'.read hn).1
  have h2 := (h.read hn).2.symm.trans (h'.read hn).2
  cases h1; cases h2; rfl

/-- Commands on a named key. -/
theorem AnsweredWith.withPath {s : Dev} {n : Nat} {p2 : UInt8} {data : Bytes} {f : PathAndCurve → Res}
    {P : PathAndCurve → Bytes → Prop} (hn : n < 256)
    (h : ∀ k, Names n p2 data k → AnsweredWith s (f k).deliver (P k)) :
    AnsweredWith s (s.withPath n p2 (some data) f).deliver (fun d => ∃ k, Names n p2 data k ∧ P k d) := by
  unfold Dev.withPath
  cases hc : Curve.ofByte p2 with
  | none =>
    refine .fail (by decide) ?_
    rintro d ⟨k, hk, -⟩
    rw [(hk.read hn).1] at hc
    cases hc
  | some c =>
    cases hp : Path.read n data with
    | error e =>
      simp only [hp]
      refine .fail (by decide) ?_
      rintro d ⟨k, hk, -⟩
      rw [(hk.read hn).2] at hp
      cases hp
    | ok p =>
      simp only [hp]
      have hk := Names.of hc hp
      have ha := h _ hk
      exact ⟨fun d => (ha.data d).trans ⟨fun h => ⟨_, hk, h⟩, fun ⟨k, h1, h2⟩ => h1.unique hn hk ▸ h2⟩, ha.only⟩

theorem Carries.step {cfg : Config} {env : Env} {s : Dev} {ev : Event} {ins p1 p2 : UInt8} {data : Bytes} {c : Cmd}
    (h : Carries ev ins p1 p2 data) (hrun : s.running = true) (hc : command cfg.build ins = some c) :
    s.step cfg env ev = (s.exec cfg env c p1 p2 (some data)).deliver := by
  obtain ⟨buf, hrec, h1, h2, h3⟩ := h.received hrun hc
  rw [hrec.step env, h1, h2, h3]

/-- C59, versions: instruction 0x00 gives the kind of the app and its version, 0x10 the version and the target, 0x09 the
commit; with any parameters and data. -/
theorem C59_version (cfg : Config) (env : Env) (s : Dev) (hrun : s.running = true) (ev : Event) (p1 p2 : UInt8)
    (data : Bytes) :
    (Carries ev 0x00 p1 p2 data → s.step cfg env ev = (s, ⟨some ([match cfg.build with | .baking => 1 | .wallet => 0,
      cfg.major, cfg.minor, cfg.patch] ++ [0x90, 0x00]), none, none⟩)) ∧
    (Carries ev 0x10 p1 p2 data → s.step cfg env ev = (s, ⟨some ([0, cfg.major, cfg.minor, cfg.patch, 0] ++
      be32 cfg.target ++ [0x90, 0x00]), none, none⟩)) ∧
    (Carries ev 0x09 p1 p2 data → s.step cfg env ev = (s, ⟨some (cfg.commit ++ [0] ++ [0x90, 0x00]), none, none⟩)) := by
  refine ⟨fun h => ?_, fun h => ?_, fun h => ?_⟩
  · rw [h.step (c := .legacyVersion) hrun (by cases cfg.build <;> decide)]
    exact s.ok_step _
  · rw [h.step (c := .version) hrun (by cases cfg.build <;> decide)]
    exact s.ok_step _
  · rw [h.step (c := .git) hrun (by cases cfg.build <;> decide)]
    exact s.ok_step _

/-- C59, public key: instruction 0x02 gives the length and the public key of the key it names, at once and without any
other effect; it is refused if it names none. -/
theorem C59_public_key (cfg : Config) (env : Env) (s : Dev) (hrun : s.running = true) (ev : Event) (p1 p2 : UInt8)
    (data : Bytes) (h : Carries ev 0x02 p1 p2 data) :
    AnsweredWith s (s.step cfg env ev) fun d =>
      ∃ k, Names 6 p2 data k ∧ ∃ key, env.cr.publicKey k.curve k.path = some key ∧ d = UInt8.ofNat key.length :: key := by
  rw [h.step (c := .getKey) hrun (by cases cfg.build <;> decide)]
  refine AnsweredWith.withPath (by omega) fun k hk => ?_
  cases hp : env.cr.publicKey k.curve k.path with
  | none => exact .fail (by decide) (by simp)
  | some key => exact .ok (by simp [keyReply])

/-- The texts of an address are unique and computed. -/
theorem IsAddressOf.unique {cr : Crypto} {c : Curve} {key t t' : Bytes} (h : IsAddressOf cr c key t)
    (h' : IsAddressOf cr c key t') : t = t' := by
  obtain ⟨a, h1, d1, d2, h2, h3, h4⟩ := h
  obtain ⟨a', h1', d1', d2', h2', h3', h4'⟩ := h'
  rw [h1] at h1'; cases h1'
  rw [h2] at h2'; cases h2'
  rw [h3] at h3'; cases h3'
  exact (IsBase58.unique h4).trans (IsBase58.unique h4').symm

theorem IsAddressOf.computed {cr : Crypto} {c : Curve} {key t : Bytes} (h : IsAddressOf cr c key t) :
    ∃ a, Addr.ofKey cr c key = some a := by
  obtain ⟨a, h1, d1, d2, h2, h3, h4⟩ := h
  unfold Addr.ofKey Addr.fromHash
  have hpre : c.hashPrefix = addressPrefix c := by cases c <;> rfl
  have h2' : cr.sha256 (addressPrefix c ++ a) = some d1 := h2
  have h3' : cr.sha256 d1 = some d2 := h3
  rw [keyHash_eq, h1, hpre]
  simp [checked, sha256x2, h2', h3']

/-- C59, address: instruction 0x11 with first parameter zero gives the length, the public key and the address of the
key it names, at once and without any other effect; it is refused if it names none. -/
theorem C59_address (cfg : Config) (env : Env) (hs : env.cr.Sized) (s : Dev) (hrun : s.running = true) (ev : Event)
    (p2 : UInt8) (data : Bytes) (h : Carries ev 0x11 0 p2 data) :
    AnsweredWith s (s.step cfg env ev) fun d => ∃ k, Names 6 p2 data k ∧ ∃ key t,
      env.cr.publicKey k.curve k.path = some key ∧ IsAddressOf env.cr k.curve key t ∧
      d = UInt8.ofNat key.length :: key ++ t := by
  rw [h.step (c := .getAddr) hrun (by cases cfg.build <;> decide)]
  refine AnsweredWith.withPath (by omega) fun k hk => ?_
  cases hp : env.cr.publicKey k.curve k.path with
  | none => exact .fail (by decide) (by simp)
  | some key =>
    simp only
    cases ha : Addr.ofKey env.cr k.curve key with
    | none =>
      refine .fail (by decide) ?_
      rintro d ⟨key', t, hk', ht, -⟩
      cases hk'
      obtain ⟨a, e⟩ := ht.computed
      rw [e] at ha
      cases ha
    | some a =>
      obtain ⟨hspec, hok⟩ := Addr.ofKey_spec ha
      simp only [View.accept, hok hs, if_true, show decide ((0 : UInt8) ≥ 1) = false from by decide,
        Bool.false_eq_true, if_false]
      refine .ok fun d => ⟨?_, ?_⟩
      · rintro ⟨key', t, hk', ht, rfl⟩
        cases hk'
        rw [ht.unique hspec]
        rfl
      · rintro rfl
        exact ⟨key, _, rfl, hspec, rfl⟩

theorem Dev.withKey_answered {s : Dev} {e e' : ApduError} (he : e ≠ .success) (he' : e' ≠ .success)
    {f : PathAndCurve → Res} {P : PathAndCurve → Bytes → Prop} (h : ∀ k, AnsweredWith s (f k).deliver (P k)) :
    AnsweredWith s (s.withKey e e' f).deliver (fun d => ∃ k, s.storedKey = some k ∧ P k d) := by
  unfold Dev.withKey Dev.storedKey Dev.withRead
  cases s.key.read with
  | err x => exact .fail he (by simp)
  | panic => exact .fault (by simp)
  | ok b =>
    simp only
    cases hb : PathAndCurve.tryFromBytes b with
    | error x => exact .fail (PathAndCurve.tryFromBytes_error hb) (by simp)
    | ok o =>
      cases o with
      | none => exact .fail he' (by simp)
      | some key =>
        have ha := h key
        exact ⟨fun d => (ha.data d).trans (by simp), ha.only⟩

/-- C59, authorized key: with first parameter zero, the path of the authorized key, after its curve if the instruction
is one of those that return it, is given at once and without any other effect. It is refused if there is none. -/
theorem C59_authorized_key (cfg : Config) (hb : cfg.build = .baking) (env : Env) (s : Dev) (hrun : s.running = true)
    (ev : Event) (wc : Bool) (ins p2 : UInt8) (hins : ins ∈ queryIns wc) (data : Bytes) (h : Carries ev ins 0 p2 data) :
    AnsweredWith s (s.step cfg env ev) fun d => ∃ k, s.storedKey = some k ∧
      (∃ key t, env.cr.publicKey k.curve k.path = some key ∧ IsAddressOf env.cr k.curve key t) ∧
      d = (if wc then [curveCode k.curve] else []) ++ (UInt8.ofNat k.path.length :: k.path.flatMap be32) := by
  have hc : command cfg.build ins = some (.queryAuth wc) := by
    rw [hb]
    cases wc <;> simp only [queryIns, Bool.false_eq_true, if_false, if_true, List.mem_cons, List.not_mem_nil, or_false] at hins <;>
      rcases hins with rfl | rfl <;> decide
  rw [h.step hrun hc]
  refine Dev.withKey_answered (by decide) (by decide) fun k => ?_
  cases ha : newAddr env.cr k.curve k.path with
  | none =>
    refine .fail (by decide) ?_
    rintro d ⟨⟨key, t, hk, ht⟩, -⟩
    obtain ⟨a, e⟩ := ht.computed
    simp only [newAddr, hk, Option.bind_eq_bind, Option.bind_some, e] at ha
    cases ha
  | some a =>
    simp only [show ¬ ((0 : UInt8) ≥ 1) from by decide, if_false, View.accept]
    refine .ok fun d => ⟨?_, ?_⟩
    · rintro ⟨-, rfl⟩
      cases k.curve <;> rfl
    · rintro rfl
      unfold newAddr at ha
      simp only [Option.bind_eq_bind, Option.bind_eq_some_iff] at ha
      obtain ⟨key, hk, ha⟩ := ha
      exact ⟨⟨key, _, hk, (Addr.ofKey_spec ha).1⟩, by cases k.curve <;> rfl⟩

/-! ### The authorized key along histories -/

/-- The authorized key stays the same as long as the user approves no change of it. -/
theorem storedKey_kept {cfg : Config} {new : NewDevice} {es : List (Env × Event)} (hes : ∀ e ∈ es, e.1.keyF.Detected)
    (hlen : es.length < 2 ^ 64) {mid : List Moment} {past rest : List Moment} {m m2 : Moment}
    (h : (Dev.factory new).trace cfg es = past ++ m :: (mid ++ m2 :: rest))
    (hm : ∀ y ∈ mid, ∀ v, Approves y.st y.ev v → v.keyChange = none) :
    m2.st.storedKey = (m.next cfg).storedKey := by
  induction mid generalizing past m with
  | nil =>
    obtain ⟨ea, eb, -, -, -, -, -, hr⟩ := Dev.trace_split h
    cases eb with
    | nil => cases hr
    | cons e eb =>
      simp only [Dev.trace, List.nil_append, List.cons.injEq] at hr
      rw [hr.1]
  | cons y mid ih =>
    have h2 : (Dev.factory new).trace cfg es = (past ++ [m]) ++ y :: (mid ++ m2 :: rest) := by rw [h]; simp
    rw [ih h2 (fun z hz => hm z (by simp [hz]))]
    have hy : y.st = m.next cfg := by
      obtain ⟨ea, eb, -, -, -, -, -, hr⟩ := Dev.trace_split h
      cases eb with
      | nil => cases hr
      | cons e eb =>
        simp only [Dev.trace, List.cons_append, List.cons.injEq] at hr
        rw [hr.1]
    rw [← hy]
    by_contra hne
    obtain ⟨v, o, ha, hv, -⟩ := C50_key_changes_by_approval cfg new es hes hlen _ _ y h2 hne
    rw [hm y (by simp) v ha] at hv
    cases hv

/-- The review changes the authorized key: to the one of an authorization or setup, or to none. -/
def ChangesKey (v : View) (o : Option PathAndCurve) : Prop :=
  (∃ k a, v = .authorize k a ∧ o = some k) ∨ (∃ k a l t ch, v = .setup k a l t ch ∧ o = some k) ∨
  (∃ a, v = .deauthorize a ∧ o = none)

theorem keyChange_iff {v : View} {o : Option PathAndCurve} : v.keyChange = some o ↔ ChangesKey v o := by
  unfold ChangesKey
  cases v <;> simp [View.keyChange, eq_comm]

/-- C59, along histories: after an approved change of the authorized key that was answered with success, and until
another is approved, also across restarts, a query without review reports this key: its path, after the curve for the
instructions that return it. If the authorization was removed, the query is refused. -/
theorem C59_reports_the_approved_key (cfg : Config) (hb : cfg.build = .baking) (new : NewDevice)
    (es : List (Env × Event)) (hes : ∀ e ∈ es, e.1.keyF.Detected) (hlen : es.length < 2 ^ 64)
    (past mid rest : List Moment) (m m2 : Moment)
    (h : (Dev.factory new).trace cfg es = past ++ m :: (mid ++ m2 :: rest)) (v : View) (o : Option PathAndCurve)
    (ha : Approves m.st m.ev v) (hv : ChangesKey v o) (hsu : m.Success)
    (hm : ∀ y ∈ mid, ∀ v o, Approves y.st y.ev v → ¬ ChangesKey v o) (hrun : m2.st.running = true) (wc : Bool)
    (ins p2 : UInt8) (hins : ins ∈ queryIns wc) (data : Bytes) (hc : Carries m2.ev ins 0 p2 data) :
    (∀ k, o = some k → (∃ key t, m2.env.cr.publicKey k.curve k.path = some key ∧ IsAddressOf m2.env.cr k.curve key t) →
      m2.out.reply = some ((if wc then [curveCode k.curve] else []) ++
        (UInt8.ofNat k.path.length :: k.path.flatMap be32) ++ [0x90, 0x00])) ∧
    (o = none → ∀ d, m2.out.reply ≠ some (d ++ [0x90, 0x00])) := by
  have hk : m2.st.storedKey = o := by
    rw [storedKey_kept hes hlen h fun y hy v hv => ?_]
    · exact key_after hes hlen h ha (keyChange_iff.mpr hv) hsu _ (.inl rfl)
    · cases hx : v.keyChange with
      | none => rfl
      | some o => exact absurd (keyChange_iff.mp hx) (hm y hy v o hv)
  have h2 : (Dev.factory new).trace cfg es = (past ++ m :: mid) ++ m2 :: rest := by rw [h]; simp
  obtain ⟨_, _, _, _, _, _, hout, _⟩ := Dev.trace_split h2
  have hans := C59_authorized_key cfg hb m2.env m2.st hrun m2.ev wc ins p2 hins data hc
  rw [hout]
  constructor
  · rintro k rfl hcr
    exact (hans.data _).mpr ⟨k, hk, hcr, rfl⟩
  · rintro rfl d hd
    obtain ⟨k, hk', -⟩ := (hans.data d).mp hd
    rw [hk] at hk'
    cases hk'

namespace Demo

set_option maxRecDepth 100000 in
/-- Versions, a public key, an address, from a new device; paths that are too long or cut short and a curve that does not
exist are refused. -/
example :
    ((fresh.run bakingApp (ok [apdu 0x00 0 0 [], apdu 0x10 1 2 [3], apdu 0x09 0 0 [], apdu 0x02 0 0 keyPath2,
      apdu 0x02 0 0 (keyPath2.take 9), apdu 0x02 0 4 keyPath2, apdu 0x02 0 0 (7 :: List.replicate 28 0)])).2.map
        Output.reply) =
      [some [1, 2, 1, 0, 0x90, 0x00], some [0, 2, 1, 0, 0, 0x33, 0, 0, 4, 0x90, 0x00],
        some (ascii "0123abc" ++ [0, 0x90, 0x00]), some (33 :: hash 33 (0 :: keyPath2.drop 1) ++ [0x90, 0x00]),
        some [0x69, 0x84], some [0x6B, 0x00], some [0x69, 0x84]] ∧
    ((fresh.run bakingApp (ok [apdu 0x11 0 0 keyPath])).2.map fun o => o.reply.map fun r => r.drop 34) =
      [some (ascii "tz1Ke2h7sSzzxrYsr26DbBRF5cdWNYS1Uetf" ++ [0x90, 0x00])] := by
  decide +kernel

/-- Authorization, queries before and after a restart, removal, query. -/
def asking : List (Env × Event) :=
  authorize ++ ok [apdu 0x0D 0 0 [], .relaunch, apdu 0xA7 0 0 []] ++ deauthorize ++ ok [apdu 0x0D 0 0 []]

set_option maxRecDepth 100000 in
set_option synthInstance.maxSize 1000 in
/-- The hypotheses of `C59_reports_the_approved_key` hold in `asking`, and the replies are as it says. -/
example :
    let t := fresh.trace bakingApp asking
    (∀ e ∈ asking, e.1.keyF.Detected) ∧
    ([4, 12].map fun i => t[i]?.map fun m => (approved m.st m.ev).map View.keyChange) =
      [some (some (some (some ⟨.ed25519, [0x8000002c, 0x800006c1]⟩))), some (some (some none))] ∧
    ([4, 5, 7, 12, 13].map fun i => t[i]?.bind fun m => m.out.reply.map fun r => r.drop (r.length - 12)) =
      [some [144, 125, 64, 2, 89, 25, 0, 47, 159, 129, 144, 0], some (0 :: keyPath ++ [0x90, 0x00]),
       some (keyPath ++ [0x90, 0x00]), some [0x90, 0x00], some [0x69, 0x85]] ∧
    ([5, 6, 7, 13].map fun i => t[i]?.map fun m => (approved m.st m.ev, m.st.running)) =
      List.replicate 4 (some (none, true)) := by
  decide +kernel

end Demo

end Tezos
