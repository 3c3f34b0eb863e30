import Verif.DeviceLemmas
/-
What one event can do to the device, put together from the handlers.
-/
set_option linter.unusedSimpArgs false
namespace Tezos

/-- The state with another pending key and upload buffer. -/
def Dev.withUpload (s : Dev) (path : Option (Path × Curve)) (upl : Upl) : Dev := { s with path := path, upl := upl }

theorem Dev.withUpload_self (s : Dev) : s.withUpload s.path s.upl = s := rfl

/-- The upload a signing command completes. -/
structure Completes (env : Env) (s : Dev) (acc : Accessor) (p1 p2 : UInt8) (payload : Option Bytes)
    (upl : Upl) (q2 : UInt8) (first data : Bytes) (ref : MemRef) : Prop where
  eq : s.upl.upload env.copyF env.appendF acc p1 p2 payload = (upl, .complete q2 first data ref)

/-- A packet completing an upload for the generic signing commands, which asks for the key `k`. -/
def Asks (env : Env) (s : Dev) (p1 p2 : UInt8) (payload : Option Bytes) (k : PathAndCurve) : Prop :=
  ∃ upl q2 first data ref, Completes env s .sign p1 p2 payload upl q2 first data ref ∧
    Curve.ofByte q2 = some k.curve ∧ Path.read bip32MaxLength first = .ok k.path

/-- Which command opens which review; the last argument is the pending key afterwards. -/
inductive Opens (env : Env) (s : Dev) (p1 p2 : UInt8) (payload : Option Bytes) :
    Cmd → View → Option (Path × Curve) → Upl → Prop where
  | operation {h : Bool} {upl : Upl} {q2 : UInt8} {first rem : Bytes} {ref : MemRef} {k : PathAndCurve}
      {digest : Bytes} {ops : Bytes × Bytes}
      (hu : Completes env s .sign p1 p2 payload upl q2 first (0x03 :: rem) ref)
      (hc : Curve.ofByte q2 = some k.curve) (hp : Path.read bip32MaxLength first = .ok k.path)
      (hd : env.cr.blake2b 32 (0x03 :: rem) = some digest) (ho : operationNew rem = .ok ops) :
      Opens env s p1 p2 payload (.sign h)
        (.sign h digest (some ⟨ref.inFlash, ref.off + 1, ref.len - 1⟩) (0x03 :: rem)) (some (k.path, k.curve)) upl
  | michelson {h : Bool} {upl : Upl} {q2 : UInt8} {first rem : Bytes} {ref : MemRef} {k : PathAndCurve}
      {digest : Bytes}
      (hu : Completes env s .sign p1 p2 payload upl q2 first (0x05 :: rem) ref)
      (hc : Curve.ofByte q2 = some k.curve) (hp : Path.read bip32MaxLength first = .ok k.path)
      (hd : env.cr.blake2b 32 (0x05 :: rem) = some digest) :
      Opens env s p1 p2 payload (.sign h) (.sign h digest none (0x05 :: rem)) (some (k.path, k.curve)) upl
  | baking {h : Bool} {upl : Upl} {q2 : UInt8} {first rem : Bytes} {ref : MemRef} {k : PathAndCurve}
      {digest branch ops rest : Bytes} {op : Op}
      (hu : Completes env s .baking p1 p2 payload upl q2 first (0x03 :: rem) ref)
      (hc : Curve.ofByte q2 = some k.curve) (hp : Path.read bip32MaxLength first = .ok k.path)
      (hk : s.storedKey = some k) (hd : env.cr.blake2b 32 (0x03 :: rem) = some digest)
      (ho : operationNew rem = .ok (branch, ops)) (hn : parseNext ops = .ok (some (rest, op)))
      (hop : (∃ d, op = .delegation d) ∨ ∃ r, op = .reveal r) :
      Opens env s p1 p2 payload (.bakerSign h)
        (.bakingSign h digest ⟨ref.inFlash, ref.off + 1, ref.len - 1⟩ op (0x03 :: rem)) s.path upl
  | addr {c : Cmd} {k : PathAndCurve} {p key : Bytes} {a : Addr}
      (hcmd : c = .promptAddr ∨ (c = .getAddr ∧ 1 ≤ p1)) (hc : Curve.ofByte p2 = some k.curve)
      (hp : payload = some p) (hr : Path.read 6 p = .ok k.path) (hk : env.cr.publicKey k.curve k.path = some key)
      (ha : Addr.ofKey env.cr k.curve key = some a) :
      Opens env s p1 p2 payload c (.addr a key true) s.path s.upl
  | authorize {k : PathAndCurve} {p : Bytes} {a : Addr} (h1 : 1 ≤ p1) (hc : Curve.ofByte p2 = some k.curve)
      (hp : payload = some p) (hr : Path.read bip32MaxLength p = .ok k.path)
      (ha : newAddr env.cr k.curve k.path = some a) :
      Opens env s p1 p2 payload .authorize (.authorize k a) s.path s.upl
  | deauthorize {k : PathAndCurve} {a : Addr} (h1 : 1 ≤ p1) (hk : s.storedKey = some k)
      (ha : newAddr env.cr k.curve k.path = some a) :
      Opens env s p1 p2 payload .deauthorize (.deauthorize a) s.path s.upl
  | query {wc : Bool} {k : PathAndCurve} {a : Addr} (h1 : 1 ≤ p1) (hk : s.storedKey = some k)
      (ha : newAddr env.cr k.curve k.path = some a) :
      Opens env s p1 p2 payload (.queryAuth wc) (.query k a wc) s.path s.upl
  | setup {k : PathAndCurve} {p : Bytes} {a : Addr} (hc : Curve.ofByte p2 = some k.curve) (hp : payload = some p)
      (hl : 13 ≤ p.length) (hn : 13 + 4 * (p.getD 12 0).toNat ≤ p.length)
      (hr : Path.read bip32MaxLength (slice p 12 (1 + 4 * (p.getD 12 0).toNat)) = .ok k.path)
      (ha : newAddr env.cr k.curve k.path = some a) :
      Opens env s p1 p2 payload .setup (.setup k a (u32OfBe (slice p 4 4)) (u32OfBe (slice p 8 4))
        (ChainID.ofU32 (u32OfBe (slice p 0 4)))) s.path s.upl

/-- The results of `exec`. -/
inductive ExecRes (env : Env) (s : Dev) (p1 p2 : UInt8) (payload : Option Bytes) (c : Cmd) (r : Res) : Prop where
  | still (p : Option (Path × Curve)) (u : Upl) (h : r.Still (s.withUpload p u))
      (hp : p = s.path ∨ ∃ h k, c = .sign h ∧ Asks env s p1 p2 payload k ∧ p = some (k.path, k.curve))
  | opened (v : View) (p : Option (Path × Curve)) (u u' : Upl) (ho : Opens env s p1 p2 payload c v p u)
      (hout : r.out = ((s.withUpload p u).show env v).out) (hsig : r.sig = none)
      (hst : r.st = { ((s.withUpload p u).show env v).st with upl := u' })
      (hupl : u' = u ∨ ∃ acc, u' = u.drop acc)
  | reset (p : Bytes) (hc : c = .reset) (hp : payload = some p) (hl : 4 ≤ p.length)
      (hr : r = s.resetHwm env (u32OfBe (p.take 4)))
  | auto (h : Bool) (u u' : Upl) (q2 : UInt8) (first data : Bytes) (ref : MemRef) (k : PathAndCurve)
      (digest : Bytes) (hc : c = .bakerSign h) (hu : Completes env s .baking p1 p2 payload u q2 first data ref)
      (hcv : Curve.ofByte q2 = some k.curve) (hp : Path.read bip32MaxLength first = .ok k.path)
      (hk : s.storedKey = some k) (hd : env.cr.blake2b 32 data = some digest)
      (hm : Spec.isConsensusMagic data = true)
      (hout : r.out = ((s.withUpload s.path u).autoSign env h digest data (specDecide data)).out)
      (hsig : r.sig = ((s.withUpload s.path u).autoSign env h digest data (specDecide data)).sig)
      (hst : r.st = { ((s.withUpload s.path u).autoSign env h digest data (specDecide data)).st with upl := u' })

theorem Res.Still.toExec {env : Env} {s : Dev} {p1 p2 : UInt8} {payload : Option Bytes} {c : Cmd} {r : Res}
    (h : r.Still s) : ExecRes env s p1 p2 payload c r := .still s.path s.upl h (.inl rfl)

theorem View.reject_upl (v : View) (s : Dev) : (v.reject s).upl = s.upl := by cases v <;> rfl

theorem Dev.show_upl (env : Env) (v : View) (s : Dev) : (s.show env v).st.upl = s.upl := by
  unfold Dev.show
  simp only
  split
  · rfl
  · rfl
  · exact v.reject_upl { s with view := some v }
  · rfl
  · rfl

theorem ExecRes.ofOpens {env : Env} {s : Dev} {p1 p2 : UInt8} {payload : Option Bytes} {c : Cmd} {r : Res} {v : View}
    (h : r = s.show env v) (ho : Opens env s p1 p2 payload c v s.path s.upl) : ExecRes env s p1 p2 payload c r := by
  subst h
  refine .opened v s.path s.upl (s.show env v).st.upl ho ?_ ?_ ?_ (.inl (s.show_upl env v))
  · rfl
  · unfold Dev.show
    simp only
    split <;> rfl
  · rfl

theorem Dev.show_sig (env : Env) (v : View) (s : Dev) : (s.show env v).sig = none := by
  unfold Dev.show
  simp only
  split <;> rfl

theorem Dev.cmdUpload_cases (env : Env) (acc : Accessor) (p1 p2 : UInt8) (payload : Option Bytes)
    (finish : UInt8 → Bytes → Bytes → MemRef → Dev → Res) (s : Dev) :
    (∃ u, (s.cmdUpload env acc p1 p2 payload finish).Still (s.withUpload s.path u)) ∨
    ∃ u u' q2 first data ref, Completes env s acc p1 p2 payload u q2 first data ref ∧
      let f := finish q2 first data ref (s.withUpload s.path u)
      u' = f.st.upl.drop acc ∧ s.cmdUpload env acc p1 p2 payload finish = { f with st := { f.st with upl := u' } } := by
  unfold Dev.cmdUpload
  cases hr : s.upl.upload env.copyF env.appendF acc p1 p2 payload with
  | mk u r =>
    simp only
    cases r with
    | more => exact .inl ⟨u, Dev.ok_still (s.withUpload s.path u) _⟩
    | err e => exact .inl ⟨u, Dev.fail_still (s.withUpload s.path u) _⟩
    | panic => exact .inl ⟨u, Dev.fault_still (s.withUpload s.path u) _⟩
    | powerLoss => exact .inl ⟨u, Dev.fault_still (s.withUpload s.path u) _⟩
    | complete q2 first data ref => exact .inr ⟨u, _, q2, first, data, ref, ⟨hr⟩, rfl, rfl⟩

theorem Res.Still.withUpl {s : Dev} {r : Res} (h : r.Still s) (u : Upl) :
    ({ r with st := { r.st with upl := u } } : Res).Still (s.withUpload s.path u) := by
  obtain ⟨h1, h2, h3⟩ := h
  exact ⟨by simp only [h1]; rfl, h2, h3⟩

/-- Everything a command can do. -/
theorem Dev.exec_cases (cfg : Config) (env : Env) (c : Cmd) (p1 p2 : UInt8) (payload : Option Bytes) (s : Dev) :
    ExecRes env s p1 p2 payload c (s.exec cfg env c p1 p2 payload) := by
  unfold Dev.exec
  cases c with
  | reset =>
    simp only
    rcases s.cmdReset_cases env payload with h | ⟨p, hp, hl, h⟩
    · exact h.still.toExec
    · rw [h]
      exact .reset p rfl hp hl rfl
  | queryMain => exact s.cmdQueryMain_still.toExec
  | queryAll => exact s.cmdQueryAll_still.toExec
  | authorize =>
    simp only
    rcases s.cmdAuthorize_cases env p1 p2 payload with h | ⟨k, p, a, h1, hc, hp, hr, ha, h⟩
    · exact h.still.toExec
    · exact .ofOpens h (.authorize h1 hc hp hr ha)
  | deauthorize =>
    simp only
    rcases s.cmdDeauthorize_cases env p1 with h | ⟨k, a, h1, hk, ha, h⟩
    · exact h.still.toExec
    · exact .ofOpens h (.deauthorize h1 hk ha)
  | queryAuth wc =>
    simp only
    rcases s.cmdQueryAuth_cases env wc p1 with h | ⟨k, a, hk, ha, ⟨h1, h⟩ | ⟨_, h⟩⟩
    · exact h.still.toExec
    · exact .ofOpens h (.query h1 hk ha)
    · rw [h]
      exact (s.ok_still _).toExec
  | setup =>
    simp only
    rcases s.cmdSetup_cases env p2 payload with h | ⟨k, p, a, hc, hp, hl, hn, hr, ha, h⟩
    · exact h.still.toExec
    · exact .ofOpens h (.setup hc hp hl hn hr ha)
  | hmac => exact (s.cmdHmac_still env p2 payload).toExec
  | legacyVersion => exact (s.ok_still _).toExec
  | git => exact (s.ok_still _).toExec
  | version => exact (s.ok_still _).toExec
  | getKey =>
    simp only
    rcases s.cmdGetKey_cases env p2 payload with h | ⟨k, p, key, _, _, _, _, h⟩
    · exact h.still.toExec
    · rw [h]
      exact (s.ok_still _).toExec
  | promptAddr =>
    simp only
    rcases s.cmdAddr_cases env true p2 payload with h | ⟨k, p, key, a, hc, hp, hr, hk, ha, ⟨_, h⟩ | ⟨h, _⟩⟩
    · exact h.still.toExec
    · exact .ofOpens h (.addr (.inl rfl) hc hp hr hk ha)
    · simp at h
  | getAddr =>
    simp only
    rcases s.cmdAddr_cases env (p1 ≥ 1) p2 payload with
      h | ⟨k, p, key, a, hc, hp, hr, hk, ha, ⟨h1, h⟩ | ⟨_, t, _, h⟩⟩
    · exact h.still.toExec
    · exact .ofOpens h (.addr (.inr ⟨rfl, by simpa using h1⟩) hc hp hr hk ha)
    · rw [h]
      exact (s.ok_still _).toExec
  | bakerSign h =>
    simp only
    rcases s.cmdUpload_cases env .baking p1 p2 payload
      (fun p2 first data ref s => s.bakerSign env h p2 first data ref) with ⟨u, hs⟩ | ⟨u, u', q2, first, data, ref, hu, hu', he⟩
    · exact .still _ _ hs (.inl rfl)
    · simp only at he
      rw [he]
      rcases (s.withUpload s.path u).bakerSign_cases env h q2 first data ref with
        hf | ⟨k, digest, hc, hp, hk, hd, ⟨hm, hb⟩ | ⟨rem, hrem, hb⟩⟩
      · exact .still s.path u' (hf.still.withUpl u') (.inl rfl)
      · exact .auto h u u' q2 first data ref k digest rfl hu hc hp hk hd hm (by rw [hb]) (by rw [hb]) (by rw [hb])
      · rcases (s.withUpload s.path u).handleDelegation_cases env h digest rem data _ with
          hf | ⟨branch, ops, rest, op, ho, hn, hop, hshow⟩
        · rw [hb]
          exact .still s.path u' (hf.still.withUpl u') (.inl rfl)
        · rw [hb, hshow, Dev.show_upl] at hu'
          rw [hb, hshow]
          subst hrem
          exact .opened _ s.path u u' (.baking hu hc hp hk hd ho hn hop) rfl (Dev.show_sig ..) rfl (.inr ⟨_, hu'⟩)
  | sign h =>
    simp only
    rcases s.cmdUpload_cases env .sign p1 p2 payload
      (fun p2 first data ref s => s.startSign env h p2 first data ref) with
      ⟨u, hs⟩ | ⟨u, u', q2, first, data, ref, hu, hu', he⟩
    · exact .still _ _ hs (.inl rfl)
    · simp only at he
      rw [he]
      rcases (s.withUpload s.path u).startSign_cases env h q2 first data ref with
        hf | ⟨k, hc, hp, hf | ⟨digest, hd, ⟨rem, ops, hrem, ho, hshow⟩ | ⟨rem, hrem, hshow⟩⟩⟩
      · exact .still s.path u' (hf.still.withUpl u') (.inl rfl)
      · exact .still (some (k.path, k.curve)) u' (hf.still.withUpl u') (.inr ⟨h, k, rfl, ⟨_, _, _, _, _, hu, hc, hp⟩, rfl⟩)
      · rw [hshow, Dev.show_upl] at hu'
        rw [hshow]
        subst hrem
        exact .opened _ (some (k.path, k.curve)) u u' (.operation hu hc hp hd ho) rfl (Dev.show_sig ..) rfl (.inr ⟨_, hu'⟩)
      · rw [hshow, Dev.show_upl] at hu'
        rw [hshow]
        subst hrem
        exact .opened _ (some (k.path, k.curve)) u u' (.michelson hu hc hp hd) rfl (Dev.show_sig ..) rfl (.inr ⟨_, hu'⟩)

end Tezos

namespace Tezos

/-- The four records are as before. -/
structure SameFlash (s s' : Dev) : Prop where
  main : s'.main = s.main
  test : s'.test = s.test
  chain : s'.chain = s.chain
  key : s'.key = s.key

theorem SameFlash.refl (s : Dev) : SameFlash s s := ⟨rfl, rfl, rfl, rfl⟩

theorem SameFlash.trans {a b c : Dev} (h1 : SameFlash a b) (h2 : SameFlash b c) : SameFlash a c :=
  ⟨h2.1.trans h1.1, h2.2.trans h1.2, h2.3.trans h1.3, h2.4.trans h1.4⟩

theorem View.reject_flash (v : View) (s : Dev) : SameFlash s (v.reject s) := by
  cases v <;> exact ⟨rfl, rfl, rfl, rfl⟩

theorem Dev.show_flash (env : Env) (v : View) (s : Dev) : SameFlash s (s.show env v).st := by
  unfold Dev.show
  simp only
  split
  · exact ⟨rfl, rfl, rfl, rfl⟩
  · exact ⟨rfl, rfl, rfl, rfl⟩
  · obtain ⟨h1, h2, h3, h4⟩ := v.reject_flash { s with view := some v }
    exact ⟨h1, h2, h3, h4⟩
  · exact ⟨rfl, rfl, rfl, rfl⟩
  · exact ⟨rfl, rfl, rfl, rfl⟩

theorem Dev.reject_flash (s : Dev) : SameFlash s s.reject.1 := by
  unfold Dev.reject
  simp only
  split
  · exact ⟨rfl, rfl, rfl, rfl⟩
  · rename_i v _
    obtain ⟨h1, h2, h3, h4⟩ := v.reject_flash { s with zui := { s.zui with screen := .idle } }
    exact ⟨h1, h2, h3, h4⟩

theorem Dev.acceptError_flash (s : Dev) : SameFlash s s.acceptError.1 := by
  unfold Dev.acceptError
  simp only
  split <;> exact ⟨rfl, rfl, rfl, rfl⟩

theorem Dev.redraw_flash (u : Upd) (s : Dev) : SameFlash s (s.redraw u).1 := by
  unfold Dev.redraw
  cases u with
  | rejected z =>
    obtain ⟨h1, h2, h3, h4⟩ := Dev.reject_flash { s with zui := z }
    exact ⟨h1, h2, h3, h4⟩
  | _ => exact ⟨rfl, rfl, rfl, rfl⟩

theorem Dev.reject_sig (s : Dev) : s.reject.2.sig = none := by
  unfold Dev.reject
  simp only
  split <;> rfl

theorem Dev.onError_flash (c : Bool) (f : XError → XError) (s : Dev) : SameFlash s (s.onError c f).1 := by
  unfold Dev.onError
  split
  · exact s.acceptError_flash
  · exact ⟨rfl, rfl, rfl, rfl⟩

theorem Dev.acceptError_sig (s : Dev) : s.acceptError.2.sig = none := by
  unfold Dev.acceptError
  simp only
  split <;> rfl

theorem Dev.onError_sig (c : Bool) (f : XError → XError) (s : Dev) : (s.onError c f).2.sig = none := by
  unfold Dev.onError
  split
  · exact s.acceptError_sig
  · rfl

theorem Dev.redraw_sig (u : Upd) (s : Dev) : (s.redraw u).2.sig = none := by
  unfold Dev.redraw
  cases u with
  | rejected z => exact Dev.reject_sig _
  | _ => rfl

/-- Drawing says nothing to the host when no review is pending. -/
theorem Dev.redraw_reply_none {u : Upd} {s : Dev} (h : s.view = none) : (s.redraw u).2.reply = none := by
  unfold Dev.redraw
  cases u with
  | rejected z =>
    simp only [Dev.reject]
    split
    · rfl
    · rename_i v hv
      rw [h] at hv
      cases hv
  | _ => rfl

theorem Res.deliver_flash (r : Res) : SameFlash r.st r.deliver.1 := by
  unfold Res.deliver
  split <;> exact ⟨rfl, rfl, rfl, rfl⟩

/-- Only a successful result hands out a signature. -/
theorem Res.deliver_sig {r : Res} {x : SigRec} (h : r.deliver.2.sig = some x) :
    r.sig = some x ∧ ∃ data, r.out = .ok data ∧ r.deliver.2.reply = some (data ++ statusWord .success) := by
  unfold Res.deliver at h ⊢
  split at h <;> simp_all

/-- The user approves the pending review `v` at this event. -/
structure Approves (s : Dev) (ev : Event) (v : View) : Prop where
  running : s.running = true
  ev : ev = .both
  onScreen : ∃ k l1 l2, s.zui.screen = .review k l1 l2
  action : s.zui.chosen = .approve
  view : s.view = some v

/-- The state in which `accept` runs: the idle screen is up. -/
def Dev.idle (s : Dev) : Dev := { s with zui := { s.zui with screen := .idle } }

theorem Dev.idle_flash (s : Dev) : SameFlash s s.idle := ⟨rfl, rfl, rfl, rfl⟩

theorem Dev.pressBoth_cases (env : Env) (s : Dev) :
    (SameFlash s (s.pressBoth env).1 ∧ (s.pressBoth env).2.sig = none) ∨
    ∃ v, s.zui.chosen = .approve ∧ s.view = some v ∧
      SameFlash (v.accept env s.idle).st (s.pressBoth env).1 ∧
      (s.pressBoth env).2.sig = (v.accept env s.idle).deliver.2.sig ∧
      (s.pressBoth env).2.reply = (v.accept env s.idle).deliver.2.reply := by
  unfold Dev.pressBoth
  simp only
  have jump : ∀ (r : Dev × Output), 
      (if r.1.running = true ∧ r.1.zui.jumps = true then
        ((r.1.redraw (r.1.zui.expertJump (r.1.viewer env))).1,
          (⟨r.2.reply <|> (r.1.redraw (r.1.zui.expertJump (r.1.viewer env))).2.reply, r.2.sig,
            r.2.fault <|> (r.1.redraw (r.1.zui.expertJump (r.1.viewer env))).2.fault⟩ : Output))
        else r).2.sig = r.2.sig ∧
      (r.1.view = none → (if r.1.running = true ∧ r.1.zui.jumps = true then
        ((r.1.redraw (r.1.zui.expertJump (r.1.viewer env))).1,
          (⟨r.2.reply <|> (r.1.redraw (r.1.zui.expertJump (r.1.viewer env))).2.reply, r.2.sig,
            r.2.fault <|> (r.1.redraw (r.1.zui.expertJump (r.1.viewer env))).2.fault⟩ : Output))
        else r).2.reply = r.2.reply) ∧
      SameFlash r.1 (if r.1.running = true ∧ r.1.zui.jumps = true then
        ((r.1.redraw (r.1.zui.expertJump (r.1.viewer env))).1,
          (⟨r.2.reply <|> (r.1.redraw (r.1.zui.expertJump (r.1.viewer env))).2.reply, r.2.sig,
            r.2.fault <|> (r.1.redraw (r.1.zui.expertJump (r.1.viewer env))).2.fault⟩ : Output))
        else r).1 := by
    intro r
    split
    · refine ⟨rfl, fun hv => ?_, Dev.redraw_flash _ _⟩
      simp only [Dev.redraw_reply_none hv]
      cases r.2.reply <;> rfl
    · exact ⟨rfl, fun _ => rfl, SameFlash.refl _⟩
  cases ha : s.zui.chosen with
  | nothing =>
    simp only
    obtain ⟨h1, h3, h2⟩ := jump (s, .quiet)
    exact .inl ⟨h2, h1⟩
  | reject =>
    simp only
    obtain ⟨h1, h3, h2⟩ := jump s.reject
    exact .inl ⟨s.reject_flash.trans h2, by rw [h1]; exact s.reject_sig⟩
  | approve =>
    simp only
    obtain ⟨h1, h3, h2⟩ := jump (s.approve env)
    cases hv : s.view with
    | none =>
      left
      have hq : s.approve env = (s.idle, .quiet) := by
        unfold Dev.approve
        dsimp only
        split
        · rfl
        · rename_i w hw
          rw [hv] at hw
          cases hw
      rw [hq] at h1 h2 h3
      rw [hq]
      exact ⟨s.idle_flash.trans h2, h1⟩
    | some v =>
      right
      have hq : s.approve env =
          ({ (v.accept env s.idle).deliver.1 with view := none }, (v.accept env s.idle).deliver.2) := by
        unfold Dev.approve
        dsimp only
        split
        · rename_i hw
          rw [hv] at hw
          cases hw
        · rename_i w hw
          rw [hv] at hw
          cases hw
          rfl
      rw [hq] at h1 h2 h3
      rw [hq]
      refine ⟨v, trivial, rfl, ?_, h1, h3 rfl⟩
      obtain ⟨a1, a2, a3, a4⟩ := (v.accept env s.idle).deliver_flash
      obtain ⟨b1, b2, b3, b4⟩ := h2
      exact ⟨b1.trans a1, b2.trans a2, b3.trans a3, b4.trans a4⟩

/-- The command a buffer holding a well-formed APDU stands for, as the dispatcher reads it. -/
structure Received (cfg : Config) (s : Dev) (ev : Event) (buf : Bytes) (rx : Nat) (c : Cmd) : Prop where
  ev : ev = .apdu buf rx
  running : s.running = true
  len : 5 ≤ rx ∧ rx ≤ buf.length
  cla : buf[0]? = some 0x80
  cmd : ∃ ins, buf[1]? = some ins ∧ command cfg.build ins = some c

/-- An APDU is refused by the dispatcher, or runs a command. -/
theorem Dev.apdu_cases (cfg : Config) (env : Env) (buf : Bytes) (rx : Nat) (s : Dev) :
    ((s.step cfg env (.apdu buf rx)).1 = s ∧ (s.step cfg env (.apdu buf rx)).2.sig = none) ∨
    ∃ c, Received cfg s (.apdu buf rx) buf rx c ∧ s.step cfg env (.apdu buf rx) =
      (s.exec cfg env c (buf.getD 2 0) (buf.getD 3 0) (apduPayload buf)).deliver := by
  simp only [Dev.step]
  split
  · rename_i hrun
    unfold Dev.dispatch
    split
    · exact .inl ⟨rfl, rfl⟩
    · rename_i hlen
      split
      · exact .inl ⟨rfl, rfl⟩
      · rename_i hcla
        split
        · exact .inl ⟨rfl, rfl⟩
        · rename_i c hc
          have h0 : 0 < buf.length := by omega
          have h1 : 1 < buf.length := by omega
          refine .inr ⟨c, ⟨rfl, hrun, by omega, ?_, buf.getD 1 0, ?_, hc⟩, rfl⟩
          · simp only [ne_eq, Decidable.not_not, List.getD_eq_getElem?_getD, List.getElem?_eq_getElem h0,
              Option.getD_some] at hcla
            rw [List.getElem?_eq_getElem h0, hcla]
          · simp [List.getD_eq_getElem?_getD, List.getElem?_eq_getElem h1]
  · exact .inl ⟨rfl, rfl⟩

/-- The records after a restart. -/
structure RelaunchedFlash (s s' : Dev) : Prop where
  main : s'.main = s.main.relaunch
  test : s'.test = s.test.relaunch
  chain : s'.chain = s.chain.relaunch
  key : s'.key = s.key.relaunch

/-- Everything an event can do to the records and in the way of signatures. -/
inductive StepRes (cfg : Config) (env : Env) (ev : Event) (s : Dev) (s' : Dev) (out : Output) : Prop where
  | still (h : SameFlash s s') (hs : out.sig = none)
  | relaunch (h : RelaunchedFlash s s') (he : ev = .relaunch) (hs : out.sig = none)
  | accept (v : View) (ha : Approves s ev v) (h : SameFlash (v.accept env s.idle).st s')
      (hs : out.sig = (v.accept env s.idle).deliver.2.sig)
      (hr : out.reply = (v.accept env s.idle).deliver.2.reply)
  | command (buf : Bytes) (rx : Nat) (c : Cmd) (hr : Received cfg s ev buf rx c)
      (h : (s.exec cfg env c (buf.getD 2 0) (buf.getD 3 0) (apduPayload buf)).deliver = (s', out))

theorem Dev.step_cases (cfg : Config) (env : Env) (ev : Event) (s : Dev) :
    StepRes cfg env ev s (s.step cfg env ev).1 (s.step cfg env ev).2 := by
  cases ev with
  | relaunch => exact .relaunch ⟨rfl, rfl, rfl, rfl⟩ rfl rfl
  | apdu buf rx =>
    rcases s.apdu_cases cfg env buf rx with ⟨h, hs⟩ | ⟨c, hrec, h⟩
    · exact .still (by rw [h]; exact .refl s) hs
    · exact .command buf rx c hrec h.symm
  | left =>
    simp only [Dev.step]
    split
    · split
      · exact .still (Dev.redraw_flash _ _) (Dev.redraw_sig _ _)
      · exact .still (Dev.onError_flash _ _ _) (Dev.onError_sig _ _ _)
      · exact .still (SameFlash.refl _) rfl
    · exact .still (SameFlash.refl _) rfl
  | right =>
    simp only [Dev.step]
    split
    · split
      · exact .still (Dev.redraw_flash _ _) (Dev.redraw_sig _ _)
      · exact .still (Dev.onError_flash _ _ _) (Dev.onError_sig _ _ _)
      · exact .still (SameFlash.refl _) rfl
    · exact .still (SameFlash.refl _) rfl
  | both =>
    simp only [Dev.step]
    split
    · rename_i hrun
      split
      · rename_i k l1 l2 hscr
        rcases s.pressBoth_cases env with ⟨h1, h2⟩ | ⟨v, ha, hv, h1, h2, h3⟩
        · exact .still h1 h2
        · exact .accept v ⟨hrun, rfl, ⟨k, l1, l2, hscr⟩, ha, hv⟩ h1 h2 h3
      · exact .still (Dev.onError_flash _ _ _) (Dev.onError_sig _ _ _)
      · exact .still (SameFlash.refl _) rfl
    · exact .still (SameFlash.refl _) rfl
  | expert =>
    simp only [Dev.step]
    split <;> exact .still ⟨rfl, rfl, rfl, rfl⟩ rfl

/-! ### Evaluating a step -/

theorem Received.step {cfg : Config} {s : Dev} {ev : Event} {buf : Bytes} {rx : Nat} {c : Cmd}
    (h : Received cfg s ev buf rx c) (env : Env) :
    s.step cfg env ev = (s.exec cfg env c (buf.getD 2 0) (buf.getD 3 0) (apduPayload buf)).deliver := by
  obtain ⟨rfl, hrun, hlen, hcla, ins, hins, hcmd⟩ := h
  have h0 : buf.getD 0 0 = 0x80 := by rw [List.getD_eq_getElem?_getD, hcla]; rfl
  have h1 : buf.getD 1 0 = ins := by rw [List.getD_eq_getElem?_getD, hins]; rfl
  simp only [Dev.step, hrun, if_true, Dev.dispatch, h0, h1, hcmd]
  rw [if_neg (by omega), if_neg (by decide)]

theorem Approves.step {cfg : Config} {s : Dev} {ev : Event} {v : View} (h : Approves s ev v) (env : Env) :
    SameFlash (v.accept env s.idle).st (s.step cfg env ev).1 ∧
    (s.step cfg env ev).2.sig = (v.accept env s.idle).deliver.2.sig ∧
    (s.step cfg env ev).2.reply = (v.accept env s.idle).deliver.2.reply := by
  obtain ⟨hrun, rfl, ⟨k, l1, l2, hscr⟩, hact, hview⟩ := h
  have hstep : s.step cfg env .both = s.pressBoth env := by simp only [Dev.step, hrun, if_true, hscr]
  have happ : s.approve env =
      ({ (v.accept env s.idle).deliver.1 with view := none }, (v.accept env s.idle).deliver.2) := by
    unfold Dev.approve
    dsimp only
    split
    · rename_i hw
      rw [hview] at hw
      cases hw
    · rename_i w hw
      rw [hview] at hw
      cases hw
      rfl
  have hfl := (v.accept env s.idle).deliver_flash
  rw [hstep]
  unfold Dev.pressBoth
  simp only [hact, happ]
  split
  · refine ⟨?_, rfl, ?_⟩
    · obtain ⟨b1, b2, b3, b4⟩ := Dev.redraw_flash
        (Zui.expertJump (Dev.viewer env { (v.accept env s.idle).deliver.1 with view := none })
          (v.accept env s.idle).deliver.1.zui) { (v.accept env s.idle).deliver.1 with view := none }
      exact ⟨b1.trans hfl.1, b2.trans hfl.2, b3.trans hfl.3, b4.trans hfl.4⟩
    · simp only [Dev.redraw_reply_none]
      cases (v.accept env s.idle).deliver.2.reply <;> rfl
  · exact ⟨⟨hfl.1, hfl.2, hfl.3, hfl.4⟩, rfl, rfl⟩

/-! ### The state during a step -/

/-- After an event the app is still running, unless the event says otherwise. -/
theorem View.accept_still_or (env : Env) (v : View) (s : Dev) :
    ((v.accept env s).st.main = s.main ∧ (v.accept env s).st.test = s.test ∧ (v.accept env s).st.chain = s.chain) ∨
    ∃ k a m t ch, v = .setup k a m t ch := by
  cases v with
  | setup k a m t ch => exact .inr ⟨k, a, m, t, ch, rfl⟩
  | sign h d p m =>
    left
    simp only [View.accept]
    split
    · exact ⟨rfl, rfl, rfl⟩
    · split <;> exact ⟨rfl, rfl, rfl⟩
  | bakingSign h d b o m =>
    left
    simp only [View.accept]
    rcases s.bakingSign_cases env h d m with ⟨h, _⟩ | ⟨k, sig, _, _, h⟩ <;> rw [h] <;> exact ⟨rfl, rfl, rfl⟩
  | addr a k w =>
    left
    simp only [View.accept]
    split
    · split <;> exact ⟨rfl, rfl, rfl⟩
    · exact ⟨rfl, rfl, rfl⟩
  | authorize k a =>
    left
    simp only [View.accept]
    split
    · exact ⟨rfl, rfl, rfl⟩
    · rcases (s.storeKey env k).1.afterWrite_cases (s.storeKey env k).2 .executionError
        (fun s => s.ok (keyReply _)) with ⟨_, h, _⟩ | ⟨_, h⟩
      · rw [h]; exact ⟨rfl, rfl, rfl⟩
      · rw [h]; exact ⟨rfl, rfl, rfl⟩
  | deauthorize a =>
    left
    simp only [View.accept]
    rcases (s.removeKey env).1.afterWrite_cases (s.removeKey env).2 .executionError
        (fun s => s.ok []) with ⟨_, h, _⟩ | ⟨_, h⟩
    · rw [h]; exact ⟨rfl, rfl, rfl⟩
    · rw [h]; exact ⟨rfl, rfl, rfl⟩
  | query k a w => exact .inl ⟨rfl, rfl, rfl⟩

end Tezos
