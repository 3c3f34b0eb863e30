import Verif.Props.Queries
import Verif.Props.Approvals
import Verif.Props.Forgets
import Verif.Spec.Machine
import Mathlib.Data.List.Forall2
/-
C114: keys that no request names have no influence on anything. Two devices with different seeds, whose keys agree on the
paths named by the host, go through the same states, give the same answers and show the same screens.
-/
set_option linter.unusedSimpArgs false
set_option linter.unusedVariables false
namespace Tezos
open Spec (uploadCapacity role feed Session Packet signingFamily)
attribute [local irreducible] knownBakers

/-! ### Which keys a request names -/

/-- Where a request has a derivation path, if it has one: the requests for a public key or an address, the opening packet
of a signing command, and in the baking build the authorization, the setup (after a chain and two levels) and the HMAC
(before the message). -/
def pathPart (b : Build) (ins p1 : UInt8) (data : Bytes) : Option Bytes :=
  if ins ∈ [0x02, 0x03, 0x11] then some data
  else if (signingFamily b ins).isSome then if role p1 = some .opening then some data else none
  else if b = .baking then
    if ins ∈ [0x01, 0xA1] then some data
    else if ins = 0x0A then some (slice data 12 (1 + 4 * (data.getD 12 0).toNat))
    else if ins = 0x0E then some (data.take (1 + 4 * (data.getD 0 0).toNat))
    else none
  else none

/-- The event is a request that names the key `k`: p2 says the curve, and the path is there. -/
def Event.Names (b : Build) (k : PathAndCurve) : Event → Prop
  | .apdu buf rx => 5 ≤ rx ∧ rx ≤ buf.length ∧ buf[0]? = some 0x80 ∧ Curve.ofByte (buf.getD 3 0) = some k.curve ∧
    pathPart b (buf.getD 1 0) (buf.getD 2 0) (slice buf 5 (buf.getD 4 0).toNat) =
      some (UInt8.ofNat k.path.length :: k.path.flatMap be32)
  | _ => False

/-- The same world but for the keys, which agree where `K` says so. -/
structure Env.OtherKeys (K : PathAndCurve → Prop) (e f : Env) : Prop where
  sha256 : f.cr.sha256 = e.cr.sha256
  sha512 : f.cr.sha512 = e.cr.sha512
  blake2b : f.cr.blake2b = e.cr.blake2b
  hmac : f.cr.hmac = e.cr.hmac
  publicKey : ∀ k, K k → f.cr.publicKey k.curve k.path = e.cr.publicKey k.curve k.path
  sign : ∀ k, K k → f.cr.sign k.curve k.path = e.cr.sign k.curve k.path
  main : f.mainF = e.mainF
  test : f.testF = e.testF
  chain : f.chainF = e.chainF
  key : f.keyF = e.keyF
  copy : f.copyF = e.copyF
  append : f.appendF = e.appendF

/-! ### Texts depend on the hash functions only -/

/-- The same hash functions with other keys. -/
def Crypto.withKeys (cr : Crypto) (pk : Curve → Path → Option Bytes) (sg : Curve → Path → Bytes → Option Bytes) : Crypto :=
  { cr with publicKey := pk, sign := sg }

/-- The same world with other keys. -/
def Env.withKeys (env : Env) (pk : Curve → Path → Option Bytes) (sg : Curve → Path → Bytes → Option Bytes) : Env :=
  { env with cr := env.cr.withKeys pk sg }

theorem Env.OtherKeys.eq {K : PathAndCurve → Prop} {e f : Env} (h : e.OtherKeys K f) :
    f = e.withKeys f.cr.publicKey f.cr.sign := by
  obtain ⟨h1, h2, h3, h4, -, -, h5, h6, h7, h8, h9, h10⟩ := h
  obtain ⟨⟨a1, a2, a3, a4, pk, sg⟩, b1, b2, b3, b4, b5, b6⟩ := f
  dsimp only at h1 h2 h3 h4 h5 h6 h7 h8 h9 h10
  subst h1 h2 h3 h4 h5 h6 h7 h8 h9 h10
  rfl

section
variable (cr : Crypto) (pk : Curve → Path → Option Bytes) (sg : Curve → Path → Bytes → Option Bytes)

theorem signOpItem_keys : signOpItem (cr.withKeys pk sg) = signOpItem cr := rfl

theorem alias_keys : ChainID.alias (cr.withKeys pk sg) = ChainID.alias cr := by
  funext c; cases c <;> rfl

theorem viewer_keys (mem : SwapBuf) (v : View) : View.viewer (cr.withKeys pk sg) mem v = View.viewer cr mem v := by
  cases v with
  | sign a d r m => cases r <;> rfl
  | setup => simp only [View.viewer, alias_keys]
  | _ => rfl

end

/-! ### Steps -/

section
variable {K : PathAndCurve → Prop} {env : Env} {pk : Curve → Path → Option Bytes} {sg : Curve → Path → Bytes → Option Bytes}

/-- The keys agree where `K` says so. -/
structure AgreeOn (K : PathAndCurve → Prop) (cr : Crypto) (pk : Curve → Path → Option Bytes)
    (sg : Curve → Path → Bytes → Option Bytes) : Prop where
  publicKey : ∀ k, K k → pk k.curve k.path = cr.publicKey k.curve k.path
  sign : ∀ k, K k → sg k.curve k.path = cr.sign k.curve k.path

/-- The keys that a device may use next are in `K`. -/
structure Dev.Uses (K : PathAndCurve → Prop) (s : Dev) : Prop where
  stored : ∀ k, s.storedKey = some k → K k
  path : ∀ k : PathAndCurve, s.path = some (k.path, k.curve) → K k
  authorize : ∀ k a, s.view = some (.authorize k a) → K k
  setup : ∀ k a m t c, s.view = some (.setup k a m t c) → K k

theorem AgreeOn.newAddr (ha : AgreeOn K env.cr pk sg) {k : PathAndCurve} (hk : K k) :
    newAddr (env.withKeys pk sg).cr k.curve k.path = newAddr env.cr k.curve k.path := by
  unfold Tezos.newAddr
  have : (env.withKeys pk sg).cr.publicKey k.curve k.path = env.cr.publicKey k.curve k.path := ha.publicKey k hk
  rw [this]
  rfl

theorem Dev.withKey_eq {s : Dev} {e e' : ApduError} {f g : PathAndCurve → Res}
    (h : ∀ k, s.storedKey = some k → f k = g k) : s.withKey e e' f = s.withKey e e' g := by
  unfold Dev.withKey Dev.withRead
  unfold Dev.storedKey at h
  cases hr : s.key.read with
  | ok b =>
    rw [hr] at h
    dsimp only at h ⊢
    cases ht : PathAndCurve.tryFromBytes b with
    | error e => rfl
    | ok o =>
      rw [ht] at h
      cases o with
      | none => rfl
      | some k => exact h k rfl
  | _ => rfl

theorem Dev.withPath_eq {s : Dev} {n : Nat} {p2 : UInt8} {pl : Option Bytes} {f g : PathAndCurve → Res}
    (h : ∀ k : PathAndCurve, Curve.ofByte p2 = some k.curve → (∃ p, pl = some p ∧ Path.read n p = .ok k.path) → f k = g k) :
    s.withPath n p2 pl f = s.withPath n p2 pl g := by
  unfold Dev.withPath
  cases hc : Curve.ofByte p2 with
  | none => rfl
  | some c =>
    cases pl with
    | none => rfl
    | some p =>
      dsimp only
      cases hr : Path.read n p with
      | error e => rfl
      | ok path => exact h ⟨c, path⟩ hc ⟨p, rfl, hr⟩

theorem Dev.show_keys (s : Dev) (v : View) : s.show (env.withKeys pk sg) v = s.show env v := by
  unfold Dev.show
  have : (env.withKeys pk sg).cr = env.cr.withKeys pk sg := rfl
  simp only [this, viewer_keys]

theorem Dev.bakingSign_keys (ha : AgreeOn K env.cr pk sg) {s : Dev} (hs : ∀ k, s.storedKey = some k → K k) (h : Bool)
    (digest msg : Bytes) : s.bakingSign (env.withKeys pk sg) h digest msg = s.bakingSign env h digest msg := by
  refine Dev.withKey_eq fun k hk => ?_
  have : (env.withKeys pk sg).cr.sign k.curve k.path = env.cr.sign k.curve k.path := ha.sign k (hs k hk)
  rw [this]

theorem View.accept_keys (ha : AgreeOn K env.cr pk sg) {s : Dev} (hs : s.Uses K) {v : View} (hv : s.view = some v) :
    v.accept (env.withKeys pk sg) s = v.accept env s := by
  cases v with
  | sign h digest r msg =>
    simp only [View.accept]
    cases hp : s.path with
    | none => rfl
    | some pc =>
      obtain ⟨path, curve⟩ := pc
      have : (env.withKeys pk sg).cr.sign curve path = env.cr.sign curve path := ha.sign ⟨curve, path⟩ (hs.path ⟨curve, path⟩ hp)
      simp only [this]
  | bakingSign h digest r o msg => exact Dev.bakingSign_keys ha hs.stored h digest msg
  | authorize k a =>
    simp only [View.accept]
    have : (env.withKeys pk sg).cr.publicKey k.curve k.path = env.cr.publicKey k.curve k.path :=
      ha.publicKey k (hs.authorize k a hv)
    rw [this]
    rfl
  | setup k a m t c =>
    simp only [View.accept]
    have : (env.withKeys pk sg).cr.publicKey k.curve k.path = env.cr.publicKey k.curve k.path :=
      ha.publicKey k (hs.setup k a m t c hv)
    rw [this]
    rfl
  | _ => rfl

theorem Dev.autoSign_keys (ha : AgreeOn K env.cr pk sg) {s : Dev} (hs : ∀ k, s.storedKey = some k → K k) (h : Bool)
    (digest msg : Bytes) (dc : WaterMark → Except HErr WaterMark) :
    s.autoSign (env.withKeys pk sg) h digest msg dc = s.autoSign env h digest msg dc := by
  unfold Dev.autoSign
  congr 1
  funext b
  cases dc (WaterMark.decode b) with
  | error e => cases e <;> rfl
  | ok w =>
    dsimp only
    have hw : s.writeMain (env.withKeys pk sg) w = s.writeMain env w := rfl
    rw [hw]
    have hk : ∀ k, (s.writeMain env w).1.storedKey = some k → K k := hs
    unfold Dev.afterWrite
    cases (s.writeMain env w).2 with
    | ok => exact Dev.bakingSign_keys ha hk h digest msg
    | _ => rfl

theorem Dev.bakerSign_keys (ha : AgreeOn K env.cr pk sg) {s : Dev} (hs : ∀ k, s.storedKey = some k → K k) (h : Bool)
    (p2 : UInt8) (first data : Bytes) (ref : MemRef) :
    s.bakerSign (env.withKeys pk sg) h p2 first data ref = s.bakerSign env h p2 first data ref := by
  refine Dev.withPath_eq fun k _ _ => Dev.withKey_eq fun st _ => ?_
  have hb : (env.withKeys pk sg).cr.blake2b = env.cr.blake2b := rfl
  simp only [hb, Dev.autoSign_keys ha hs, Dev.handleDelegation, Dev.show_keys]

theorem Dev.startSign_keys {s : Dev} (h : Bool) (p2 : UInt8) (first data : Bytes) (ref : MemRef) :
    s.startSign (env.withKeys pk sg) h p2 first data ref = s.startSign env h p2 first data ref := by
  unfold Dev.startSign
  have hb : (env.withKeys pk sg).cr.blake2b = env.cr.blake2b := rfl
  simp only [hb, Dev.show_keys]

end

/-! ### Commands -/

theorem command_ins (b : Build) (ins : UInt8) :
    (command b ins = some .authorize → b = .baking ∧ (ins = 0x01 ∨ ins = 0xA1)) ∧
    (command b ins = some .getKey → ins = 0x02) ∧ (command b ins = some .promptAddr → ins = 0x03) ∧
    (command b ins = some .getAddr → ins = 0x11) ∧ (command b ins = some .setup → b = .baking ∧ ins = 0x0A) ∧
    (command b ins = some .hmac → b = .baking ∧ ins = 0x0E) := by
  cases b
  · exact forall_u8 (P := fun ins => (command .baking ins = some .authorize → Build.baking = .baking ∧ (ins = 0x01 ∨ ins = 0xA1)) ∧
      (command .baking ins = some .getKey → ins = 0x02) ∧ (command .baking ins = some .promptAddr → ins = 0x03) ∧
      (command .baking ins = some .getAddr → ins = 0x11) ∧
      (command .baking ins = some .setup → Build.baking = .baking ∧ ins = 0x0A) ∧
      (command .baking ins = some .hmac → Build.baking = .baking ∧ ins = 0x0E)) (by decide +kernel) ins
  · exact forall_u8 (P := fun ins => (command .wallet ins = some .authorize → Build.wallet = .baking ∧ (ins = 0x01 ∨ ins = 0xA1)) ∧
      (command .wallet ins = some .getKey → ins = 0x02) ∧ (command .wallet ins = some .promptAddr → ins = 0x03) ∧
      (command .wallet ins = some .getAddr → ins = 0x11) ∧
      (command .wallet ins = some .setup → Build.wallet = .baking ∧ ins = 0x0A) ∧
      (command .wallet ins = some .hmac → Build.wallet = .baking ∧ ins = 0x0E)) (by decide +kernel) ins

theorem command_pathPart {b : Build} {ins : UInt8} {c : Cmd} (h : command b ins = some c) (p1 : UInt8) (data : Bytes) :
    (c = .authorize ∨ c = .getKey ∨ c = .promptAddr ∨ c = .getAddr → pathPart b ins p1 data = some data) ∧
    (c = .setup → pathPart b ins p1 data = some (slice data 12 (1 + 4 * (data.getD 12 0).toNat))) ∧
    (c = .hmac → pathPart b ins p1 data = some (data.take (1 + 4 * (data.getD 0 0).toNat))) := by
  obtain ⟨h1, h2, h3, h4, h5, h6⟩ := command_ins b ins
  rw [h] at h1 h2 h3 h4 h5 h6
  refine ⟨?_, ?_, ?_⟩
  · rintro (rfl | rfl | rfl | rfl)
    · obtain ⟨rfl, rfl | rfl⟩ := h1 rfl <;> rfl
    · rw [h2 rfl]; rfl
    · rw [h3 rfl]; rfl
    · rw [h4 rfl]; rfl
  · rintro rfl
    obtain ⟨rfl, rfl⟩ := h5 rfl
    rfl
  · rintro rfl
    obtain ⟨rfl, rfl⟩ := h6 rfl
    rfl

/-- The dispatcher runs the command `c` of this buffer. -/
structure Runs (b : Build) (buf : Bytes) (rx : Nat) (c : Cmd) : Prop where
  len : 5 ≤ rx ∧ rx ≤ buf.length
  cla : buf[0]? = some 0x80
  cmd : command b (buf.getD 1 0) = some c

theorem apduPayload_eq {buf p : Bytes} (h : apduPayload buf = some p) : p = slice buf 5 (buf.getD 4 0).toNat := by
  unfold apduPayload at h
  simp only at h
  split at h
  · exact (Option.some.inj h).symm
  · cases h

theorem Runs.names {b : Build} {buf p part : Bytes} {rx n : Nat} {c : Cmd} {k : PathAndCurve} (h : Runs b buf rx c)
    (hp : apduPayload buf = some p) (hc : Curve.ofByte (buf.getD 3 0) = some k.curve)
    (hpart : pathPart b (buf.getD 1 0) (buf.getD 2 0) p = some part) (hr : Path.read n part = .ok k.path) :
    (Event.apdu buf rx).Names b k := by
  obtain ⟨-, -, -, he⟩ := Path.read_ok.mp hr
  refine ⟨h.len.1, h.len.2, h.cla, hc, ?_⟩
  rw [← apduPayload_eq hp, hpart, he]

section
variable {K : PathAndCurve → Prop} {env : Env} {pk : Curve → Path → Option Bytes} {sg : Curve → Path → Bytes → Option Bytes}

theorem Dev.cmdUpload_keys {acc : Accessor} {p1 p2 : UInt8} {pl : Option Bytes} {s : Dev}
    {f g : UInt8 → Bytes → Bytes → MemRef → Dev → Res}
    (h : ∀ q2 first data ref u, f q2 first data ref { s with upl := u } = g q2 first data ref { s with upl := u }) :
    s.cmdUpload (env.withKeys pk sg) acc p1 p2 pl f = s.cmdUpload env acc p1 p2 pl g := by
  unfold Dev.cmdUpload
  have : s.upl.upload (env.withKeys pk sg).copyF (env.withKeys pk sg).appendF acc p1 p2 pl =
    s.upl.upload env.copyF env.appendF acc p1 p2 pl := rfl
  simp only [this]
  cases (s.upl.upload env.copyF env.appendF acc p1 p2 pl).2 with
  | complete q2 first data ref => simp only [h]
  | _ => rfl

theorem Dev.exec_keys (ha : AgreeOn K env.cr pk sg) {s : Dev} (hs : ∀ k, s.storedKey = some k → K k) {cfg : Config}
    {c : Cmd} {buf : Bytes} {rx : Nat} (hr : Runs cfg.build buf rx c)
    (hn : ∀ k, (Event.apdu buf rx).Names cfg.build k → K k) :
    s.exec cfg (env.withKeys pk sg) c (buf.getD 2 0) (buf.getD 3 0) (apduPayload buf) =
      s.exec cfg env c (buf.getD 2 0) (buf.getD 3 0) (apduPayload buf) := by
  have haddr : Addr.ofKey (env.withKeys pk sg).cr = Addr.ofKey env.cr := rfl
  have hpp := fun data => command_pathPart hr.cmd (buf.getD 2 0) data
  cases c with
  | authorize =>
    simp only [Dev.exec, Dev.cmdAuthorize]
    split
    · rfl
    refine Dev.withPath_eq fun k hc ⟨p, hp, hrd⟩ => ?_
    have hk : K k := hn k (hr.names hp hc ((hpp p).1 (by simp)) hrd)
    rw [ha.newAddr hk]
    simp only [Dev.show_keys]
  | deauthorize =>
    simp only [Dev.exec, Dev.cmdDeauthorize]
    split
    · rfl
    refine Dev.withKey_eq fun k hk => ?_
    rw [ha.newAddr (hs k hk)]
    simp only [Dev.show_keys]
  | queryAuth wc =>
    simp only [Dev.exec, Dev.cmdQueryAuth]
    refine Dev.withKey_eq fun k hk => ?_
    rw [ha.newAddr (hs k hk)]
    simp only [Dev.show_keys]
    rfl
  | setup =>
    simp only [Dev.exec, Dev.cmdSetup]
    cases hc : Curve.ofByte (buf.getD 3 0) with
    | none => rfl
    | some curve =>
      cases hp : apduPayload buf with
      | none => rfl
      | some p =>
        dsimp only
        split
        · rfl
        split
        · rfl
        cases hrd : Path.read bip32MaxLength (slice p 12 (1 + 4 * (p.getD 12 0).toNat)) with
        | error e => rfl
        | ok path =>
          dsimp only
          have hk : K ⟨curve, path⟩ := hn _ (hr.names (k := ⟨curve, path⟩) hp hc ((hpp p).2.1 rfl) hrd)
          rw [ha.newAddr (k := ⟨curve, path⟩) hk]
          simp only [Dev.show_keys]
  | hmac =>
    simp only [Dev.exec, Dev.cmdHmac]
    cases hc : Curve.ofByte (buf.getD 3 0) with
    | none => rfl
    | some curve =>
      cases hp : apduPayload buf with
      | none => rfl
      | some p =>
        dsimp only
        split
        · rfl
        split
        · rfl
        cases hrd : Path.read bip32MaxLength (p.take (1 + 4 * (p.getD 0 0).toNat)) with
        | error e => rfl
        | ok path =>
          dsimp only
          have hk : K ⟨curve, path⟩ := hn _ (hr.names (k := ⟨curve, path⟩) hp hc ((hpp p).2.2 rfl) hrd)
          have : (env.withKeys pk sg).cr.sign curve path = env.cr.sign curve path := ha.sign ⟨curve, path⟩ hk
          rw [this]
          rfl
  | bakerSign h =>
    exact Dev.cmdUpload_keys fun q2 first data ref u => Dev.bakerSign_keys ha (s := { s with upl := u }) hs h q2 first data ref
  | sign h => exact Dev.cmdUpload_keys fun q2 first data ref u => Dev.startSign_keys h q2 first data ref
  | getKey =>
    simp only [Dev.exec, Dev.cmdGetKey]
    refine Dev.withPath_eq fun k hc ⟨p, hp, hrd⟩ => ?_
    have hk : K k := hn k (hr.names hp hc ((hpp p).1 (by simp)) hrd)
    have : (env.withKeys pk sg).cr.publicKey k.curve k.path = env.cr.publicKey k.curve k.path := ha.publicKey k hk
    rw [this]
  | promptAddr =>
    simp only [Dev.exec, Dev.cmdAddr]
    refine Dev.withPath_eq fun k hc ⟨p, hp, hrd⟩ => ?_
    have hk : K k := hn k (hr.names hp hc ((hpp p).1 (by simp)) hrd)
    have : (env.withKeys pk sg).cr.publicKey k.curve k.path = env.cr.publicKey k.curve k.path := ha.publicKey k hk
    simp only [this, haddr, Dev.show_keys]
    rfl
  | getAddr =>
    simp only [Dev.exec, Dev.cmdAddr]
    refine Dev.withPath_eq fun k hc ⟨p, hp, hrd⟩ => ?_
    have hk : K k := hn k (hr.names hp hc ((hpp p).1 (by simp)) hrd)
    have : (env.withKeys pk sg).cr.publicKey k.curve k.path = env.cr.publicKey k.curve k.path := ha.publicKey k hk
    simp only [this, haddr, Dev.show_keys]
    rfl
  | _ => rfl

theorem Dev.viewer_keys (s : Dev) : s.viewer (env.withKeys pk sg) = s.viewer env := by
  unfold Dev.viewer
  have : (env.withKeys pk sg).cr = env.cr.withKeys pk sg := rfl
  rw [this]
  cases s.view with
  | none => rfl
  | some v => simp only [Option.map_some, Tezos.viewer_keys]

theorem Dev.approve_keys (ha : AgreeOn K env.cr pk sg) {s : Dev} (hs : s.Uses K) :
    s.approve (env.withKeys pk sg) = s.approve env := by
  unfold Dev.approve
  simp only
  cases hv : s.view with
  | none => rfl
  | some v =>
    have := View.accept_keys ha (s := { s with zui := { s.zui with screen := .idle } })
      ⟨hs.stored, hs.path, hs.authorize, hs.setup⟩ hv
    simp only [hv] at this ⊢
    rw [this]

theorem Dev.step_keys (ha : AgreeOn K env.cr pk sg) {s : Dev} (hs : s.Uses K) {cfg : Config} {ev : Event}
    (hn : ∀ k, ev.Names cfg.build k → K k) : s.step cfg (env.withKeys pk sg) ev = s.step cfg env ev := by
  cases ev with
  | apdu buf rx =>
    simp only [Dev.step, Dev.dispatch]
    split
    · congr 1
      split
      · rfl
      rename_i hlen
      split
      · rfl
      rename_i hcla
      cases hc : command cfg.build (buf.getD 1 0) with
      | none => rfl
      | some c =>
        have h0 : 0 < buf.length := by omega
        refine Dev.exec_keys ha hs.stored ⟨by omega, ?_, hc⟩ hn
        simp only [ne_eq, Decidable.not_not, List.getD_eq_getElem?_getD, List.getElem?_eq_getElem h0,
          Option.getD_some] at hcla
        rw [List.getElem?_eq_getElem h0, hcla]
    · rfl
  | both =>
    simp only [Dev.step, Dev.pressBoth, Dev.viewer_keys, Dev.approve_keys ha hs]
  | left => simp only [Dev.step, Dev.viewer_keys]
  | right => simp only [Dev.step, Dev.viewer_keys]
  | _ => rfl

end

/-! ### The keys in use were named -/

theorem Moment.Opens.names {cfg : Config} {m : Moment} {v : View} (h : m.Opens cfg v) :
    (∀ k a, v = .authorize k a → m.ev.Names cfg.build k) ∧
    (∀ k a l t c, v = .setup k a l t c → m.ev.Names cfg.build k) := by
  obtain ⟨buf, rx, c, p, u, hrec, ho, -⟩ := h.ex
  have hr : Runs cfg.build buf rx c := by
    obtain ⟨ins, hi, hcmd⟩ := hrec.cmd
    refine ⟨hrec.len, hrec.cla, ?_⟩
    rw [List.getD_eq_getElem?_getD, hi]
    exact hcmd
  rw [hrec.ev]
  refine ⟨?_, ?_⟩
  · rintro k a rfl
    cases ho with
    | authorize h1 hc hp hrd ha => exact hr.names hp hc ((command_pathPart hr.cmd _ _).1 (by simp)) hrd
  · rintro k a l t ch rfl
    cases ho with
    | setup hc hp hl hn hrd ha => exact hr.names hp hc ((command_pathPart hr.cmd _ _).2.1 rfl) hrd

theorem familyOf_signingFamily (b : Build) (ins : UInt8) : (familyOf b ins).isSome = (signingFamily b ins).isSome := by
  cases b
  · simp only [familyOf, signingFamily]
    split
    · split <;> rfl
    · split <;> rfl
  · rfl

theorem pathPart_signing {b : Build} {ins p1 : UInt8} {data : Bytes} (h : (familyOf b ins).isSome)
    (hr : role p1 = some .opening) : pathPart b ins p1 data = some data := by
  unfold pathPart
  rw [familyOf_signingFamily] at h
  split
  · rfl
  · simp only [h, hr, if_true]

theorem Event.packet_names {b : Build} {ev : Event} {k : Packet Accessor} {pc : PathAndCurve} (h : ev.packet b = some k)
    (hr : role k.p1 = some .opening) (hc : Curve.ofByte k.p2 = some pc.curve)
    (hp : k.payload = UInt8.ofNat pc.path.length :: pc.path.flatMap be32) : ev.Names b pc := by
  cases ev with
  | apdu buf rx =>
    simp only [Event.packet] at h
    split at h
    · rename_i hl
      rw [Option.map_eq_some_iff] at h
      obtain ⟨f, hf, rfl⟩ := h
      rw [Option.bind_eq_some_iff] at hf
      obtain ⟨ins, hi, hf⟩ := hf
      refine ⟨hl.1, hl.2.1, hl.2.2, hc, ?_⟩
      dsimp only at hp hr
      have hins : buf.getD 1 0 = ins := by rw [List.getD_eq_getElem?_getD, hi]; rfl
      rw [hins, pathPart_signing (by rw [hf]; rfl) hr, hp]
    · cases h
  | _ => cases h

/-- What an open upload starts with came in an opening packet. -/
theorem sessionIn_opening {cfg : Config} {past : List Moment} {x : Session Accessor} (h : sessionIn cfg past = some x) :
    ∃ m ∈ past, ∃ k, m.ev.packet cfg.build = some k ∧ role k.p1 = some .opening ∧ k.p2 = x.p2 ∧ k.payload = x.first := by
  induction past using list_snoc_induction generalizing x with
  | nil => cases h
  | snoc past m ih =>
    unfold sessionIn at h
    rw [List.foldl_append] at h
    simp only [List.foldl_cons, List.foldl_nil] at h
    have old : ∀ y, sessionIn cfg past = some y → y.p2 = x.p2 → y.first = x.first →
        ∃ m' ∈ past ++ [m], ∃ k, m'.ev.packet cfg.build = some k ∧ role k.p1 = some .opening ∧ k.p2 = x.p2 ∧
          k.payload = x.first := by
      intro y hy h1 h2
      obtain ⟨m', hm', k, a, b, c, d⟩ := ih hy
      exact ⟨m', by simp [hm'], k, a, b, c.trans h1, d.trans h2⟩
    have hsame : sessionIn cfg past = some x → _ := fun hy => old x hy rfl rfl
    change sessionStep cfg (sessionIn cfg past) m = some x at h
    unfold sessionStep at h
    split at h
    · cases h
    split at h
    · cases hk : m.ev.packet cfg.build with
      | none =>
        rw [hk] at h
        exact hsame h
      | some k =>
        rw [hk] at h
        dsimp only at h
        cases hr : role k.p1 with
        | none =>
          simp only [feed, hr] at h
          exact hsame h
        | some r =>
          cases r with
          | opening =>
            simp only [feed, hr] at h
            cases h
            exact ⟨m, by simp, k, hk, hr, rfl, rfl⟩
          | middle =>
            cases ho : sessionIn cfg past with
            | none => simp [feed, hr, ho] at h
            | some y =>
              simp only [feed, hr, ho] at h
              split at h
              · cases h
                exact old y ho rfl rfl
              · cases h
                exact hsame ho
          | closing =>
            cases ho : sessionIn cfg past with
            | none => simp [feed, hr, ho] at h
            | some y =>
              simp only [feed, hr, ho] at h
              split at h
              · cases h
              · cases h
                exact hsame ho
    · exact hsame h

theorem feed_complete {o : Option (Session Accessor)} {k : Packet Accessor} {q2 : UInt8} {first data : Bytes}
    (h : (feed o k).2 = some (q2, first, data)) : ∃ x, o = some x ∧ x.p2 = q2 ∧ x.first = first := by
  unfold feed at h
  split at h
  · cases h
  · split at h <;> cases h
  · split at h
    · cases h
      exact ⟨_, rfl, rfl, rfl⟩
    · cases h
  · cases h

/-- Every key that a device may use next was named by a request. -/
theorem run_uses {K : PathAndCurve → Prop} {cfg : Config} {new : NewDevice} (hu : new.upload.length = uploadCapacity)
    {es : List (Env × Event)} (hes : ∀ e ∈ es, Good e.1 e.2 ∧ e.1.keyF.Detected) (hlen : es.length < 2 ^ 64)
    (hK : ∀ e ∈ es, ∀ k, e.2.Names cfg.build k → K k) : ((Dev.factory new).run cfg es).1.Uses K := by
  have hm : ∀ m ∈ (Dev.factory new).trace cfg es, ∀ k, m.ev.Names cfg.build k → K k := by
    intro m hm k hk
    obtain ⟨a, b, hab⟩ := List.append_of_mem hm
    obtain ⟨ea, eb, he, -⟩ := Dev.trace_split hab
    exact hK (m.env, m.ev) (by rw [he]; simp) k hk
  have hview : ∀ {es' : List (Env × Event)} {v : View}, ((Dev.factory new).run cfg es').1.view = some v →
      (∀ m ∈ (Dev.factory new).trace cfg es', ∀ k, m.ev.Names cfg.build k → K k) →
      (∀ k a, v = .authorize k a → K k) ∧ (∀ k a l t c, v = .setup k a l t c → K k) := by
    intro es' v hv hm
    rcases Dev.run_view hv with ⟨h', -⟩ | ⟨a, m0, b, ht, ho, -⟩
    · cases h'
    · have hm0 := hm m0 (by rw [ht]; simp)
      exact ⟨fun k a' h => hm0 k (ho.names.1 k a' h), fun k a' l t c h => hm0 k (ho.names.2 k a' l t c h)⟩
  refine ⟨fun k hk => ?_, fun k hk => ?_, fun k a hv => (hview hv hm).1 k a rfl,
    fun k a l t c hv => (hview hv hm).2 k a l t c rfl⟩
  · obtain ⟨c, hc, hf⟩ := history_key (cfg := cfg) (new := new) (fun e he => (hes e he).2) hlen
    rw [hc.storedKey] at hk
    obtain ⟨a, m, b, ht, ⟨v, hv, hch⟩, -⟩ := hf k hk
    obtain ⟨ea, eb, he, -, ha, hst, -⟩ := Dev.trace_split ht
    have hmem : ∀ m' ∈ (Dev.factory new).trace cfg ea, ∀ k, m'.ev.Names cfg.build k → K k :=
      fun m' hm' => hm m' (by rw [ht, ha]; simp [hm'])
    have := hview (es' := ea) (v := v) (by rw [← hst]; exact hv.view) hmem
    cases v with
    | authorize k' a' =>
      cases hch
      exact this.1 _ _ rfl
    | setup k' a' l t c =>
      cases hch
      exact this.2 _ _ _ _ _ rfl
    | _ => cases hch
  · rcases Dev.run_path hk with h' | ⟨a, m0, b, ht, has⟩
    · cases h'
    · have hg : ∀ e ∈ es, Good e.1 e.2 := fun e he => (hes e he).1
      have hgood : Good m0.env m0.ev := Good.trace hg m0 (by rw [ht]; simp)
      have hsess : UplInv m0.st.upl (sessionIn cfg a) := by
        obtain ⟨e1, e2, he, _, ha', hm0, _, _⟩ := Dev.trace_split ht
        rw [ha', hm0]
        exact factory_session hu fun e he' => hg e (by rw [he]; simp [he'])
      obtain ⟨pk, q2, first, data, -, -, h5, h6, h7⟩ := has.packet hgood hsess
      obtain ⟨x, hx, rfl, rfl⟩ := feed_complete h5
      obtain ⟨m', hm', pk', h8, h9, h10, h11⟩ := sessionIn_opening hx
      exact hm m' (by rw [ht]; simp [hm']) k (Event.packet_names h8 h9 (by rw [h10, h6]) (by rw [h11, h7]))

/-! ### The theorems -/

theorem run_unnamed {K : PathAndCurve → Prop} {cfg : Config} {new : NewDevice} (hu : new.upload.length = uploadCapacity)
    {pre es fs : List (Env × Event)} (hs : List.Forall₂ (fun e f => f.2 = e.2 ∧ e.1.OtherKeys K f.1) es fs)
    (hes : ∀ e ∈ pre ++ es, Good e.1 e.2 ∧ e.1.keyF.Detected) (hlen : (pre ++ es).length < 2 ^ 64)
    (hK : ∀ e ∈ pre ++ es, ∀ k, e.2.Names cfg.build k → K k) :
    ((Dev.factory new).run cfg pre).1.run cfg fs = ((Dev.factory new).run cfg pre).1.run cfg es := by
  induction hs generalizing pre with
  | nil => rfl
  | @cons e f es fs h hs ih =>
    obtain ⟨hev, hk⟩ := h
    have hstep : ((Dev.factory new).run cfg pre).1.step cfg f.1 f.2 = ((Dev.factory new).run cfg pre).1.step cfg e.1 e.2 := by
      rw [hev, hk.eq]
      refine Dev.step_keys (K := K) ⟨hk.publicKey, hk.sign⟩ (run_uses hu (fun x hx => hes x (by simp [hx])) ?_
        fun x hx => hK x (by simp [hx])) (hK e (by simp))
      simp only [List.length_append] at hlen
      omega
    have h2 := ih (pre := pre ++ [e]) (by simpa using hes) (by simpa using hlen) (by simpa using hK)
    have hpre : ((Dev.factory new).run cfg (pre ++ [e])).1 = (((Dev.factory new).run cfg pre).1.step cfg e.1 e.2).1 := by
      rw [Dev.run_append]
      rfl
    rw [hpre] at h2
    simp only [Dev.run, hstep, h2]

/-- **C114.** Two devices get the same events in worlds that differ in nothing but the keys, and the keys that a request
names are the same in both. Then the devices are in the same state after every event, with the same texts on the display,
and send the same answers: nothing that the app does depends on a key that no request has named. -/
theorem C114_unnamed (cfg : Config) (new : NewDevice) (hu : new.upload.length = uploadCapacity) (es fs : List (Env × Event))
    (hes : ∀ e ∈ es, Good e.1 e.2 ∧ e.1.keyF.Detected) (hlen : es.length < 2 ^ 64)
    (hs : List.Forall₂ (fun e f => f.2 = e.2 ∧ e.1.OtherKeys (fun k => ∃ x ∈ es, x.2.Names cfg.build k) f.1) es fs) :
    (Dev.factory new).run cfg fs = (Dev.factory new).run cfg es :=
  run_unnamed (pre := []) hu hs hes hlen fun e he k hk => ⟨e, he, hk⟩

/-- **C114.** The key that bakes was named: so was that of a pending review that asks to authorize or set up a key, and
that with which an approval would sign an operation. -/
theorem C114_in_use (cfg : Config) (new : NewDevice) (hu : new.upload.length = uploadCapacity) (es : List (Env × Event))
    (hes : ∀ e ∈ es, Good e.1 e.2 ∧ e.1.keyF.Detected) (hlen : es.length < 2 ^ 64) (k : PathAndCurve) :
    let s := ((Dev.factory new).run cfg es).1
    s.storedKey = some k ∨ s.path = some (k.path, k.curve) ∨ (∃ a, s.view = some (.authorize k a)) ∨
      (∃ a m t c, s.view = some (.setup k a m t c)) →
    ∃ x ∈ es, x.2.Names cfg.build k := by
  have h : ((Dev.factory new).run cfg es).1.Uses (fun k => ∃ x ∈ es, x.2.Names cfg.build k) :=
    run_uses hu hes hlen fun e he k hk => ⟨e, he, hk⟩
  rintro s (h' | h' | ⟨a, h'⟩ | ⟨a, m, t, c, h'⟩)
  · exact h.stored k h'
  · exact h.path k h'
  · exact h.authorize k a h'
  · exact h.setup k a m t c h'

namespace Demo

/-- The same world with another key at the path `p`. -/
def otherAt (p : Path) (env : Env) : Env :=
  env.withKeys (fun c q => if q = p then (env.cr.publicKey c q).map List.reverse else env.cr.publicKey c q)
    (fun c q d => if q = p then some (List.replicate 70 9) else env.cr.sign c q d)

/-- A public key is read, a key is set up for baking, a block is signed with it, and an HMAC is made. -/
def keysUsed : List (Env × Event) :=
  ok [apdu 0x02 0 0 keyPath] ++ setup 10 ++ sign (tbBlock 11 0) ++ ok [apdu 0x0E 0 0 (keyPath ++ [1, 2])]

/-- Whether an event has this path where its path would be. -/
def hasPath (b : Build) (p : Path) : Event → Bool
  | .apdu buf _ => decide (pathPart b (buf.getD 1 0) (buf.getD 2 0) (slice buf 5 (buf.getD 4 0).toNat) =
      some (UInt8.ofNat p.length :: p.flatMap be32))
  | _ => false

theorem hasPath_of_names {b : Build} {k : PathAndCurve} {ev : Event} (h : ev.Names b k) : hasPath b k.path ev = true := by
  cases ev with
  | apdu buf rx => exact decide_eq_true h.2.2.2.2
  | _ => cases h

set_option maxRecDepth 100000 in
/-- The hypotheses of C114: the key at 44'/1729'/0' is another one, and no request has this path. -/
example : (Dev.factory emptyNew).run bakingApp (keysUsed.map fun e => (otherAt [0x8000002c, 0x800006c1, 0x80000000] e.1, e.2)) =
    (Dev.factory emptyNew).run bakingApp keysUsed := by
  have hno : ∀ e ∈ keysUsed, hasPath .baking [0x8000002c, 0x800006c1, 0x80000000] e.2 = false := by decide +kernel
  have hg : (keysUsed.all fun e => decide (Good e.1 e.2)) = true := by decide +kernel
  refine C114_unnamed bakingApp emptyNew (by decide +kernel) keysUsed _ ?_ (by decide +kernel) ?_
  · intro e he
    refine ⟨of_decide_eq_true (List.all_eq_true.mp hg e he), ?_⟩
    have : ∀ e ∈ keysUsed, e.1.keyF = .done := by decide +kernel
    rw [this e he]
    trivial
  · rw [List.forall₂_map_right_iff, List.forall₂_same]
    intro e he
    have hne : ∀ k : PathAndCurve, (∃ x ∈ keysUsed, x.2.Names bakingApp.build k) →
        k.path ≠ [0x8000002c, 0x800006c1, 0x80000000] := by
      rintro k ⟨x, hx, hk⟩ hp
      have h1 := hasPath_of_names hk
      rw [hp] at h1
      rw [show bakingApp.build = .baking from rfl, hno x hx] at h1
      cases h1
    refine ⟨rfl, rfl, rfl, rfl, rfl, fun k hk => if_neg (hne k hk), fun k hk => ?_, rfl, rfl, rfl, rfl, rfl, rfl⟩
    funext d
    exact if_neg (hne k hk)

set_option maxRecDepth 100000 in
/-- A key that is named does matter: the public key as read and as answered to the setup, the signature and the HMAC
are others; the rest of the answers is the
same. -/
example :
    ((((Dev.factory emptyNew).run bakingApp keysUsed).2.zip
      ((Dev.factory emptyNew).run bakingApp (keysUsed.map fun e => (otherAt [0x8000002c, 0x800006c1] e.1, e.2))).2).map
        fun x => decide (x.1.reply = x.2.reply)) =
      [false, true, true, true, true, true, true, true, false, true, false, false] ∧
    (((Dev.factory emptyNew).run bakingApp keysUsed).2.map fun o => o.sig.isSome) =
      [false, false, false, false, false, false, false, false, false, false, true, false] := by
  decide +kernel

set_option maxRecDepth 100000 in
/-- A key is in use after these requests: it bakes. -/
example : ((Dev.factory emptyNew).run bakingApp keysUsed).1.storedKey = some ⟨.ed25519, [0x8000002c, 0x800006c1]⟩ := by
  decide +kernel

end Demo

end Tezos
