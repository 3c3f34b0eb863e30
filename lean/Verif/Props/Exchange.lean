import Verif.Exchange
import Verif.Calm
import Verif.Props.Address
import Verif.Props.Approvals
import Verif.Props.Replies
/-
C80: the exchange buffer. Every reply fits beside every review; as long as no long command arrives while a review is
pending, reviews stay what they were and the app does what `Dev` does; a long command changes what is signed.
-/
set_option linter.unusedSimpArgs false
namespace Tezos
open Spec

/-! ### Every reply is short -/

/-- What is known of the sizes in a pending review. -/
def View.Compact : View → Prop
  | .sign _ d _ _ => d.length = 32
  | .bakingSign _ d _ _ _ => d.length = 32
  | .addr a k _ => a.bytes.length = 27 ∧ k.length ≤ 65
  | .query k _ _ => k.path.length ≤ 10
  | _ => True

theorem key_short {cr : Crypto} (hs : cr.Sized) {c : Curve} {p : Path} {k : Bytes} (h : cr.publicKey c p = some k) :
    k.length ≤ 65 := by
  have := hs.publicKey h
  cases c <;> simp_all

theorem storedKey_le {s : Dev} {k : PathAndCurve} (h : s.storedKey = some k) : k.path.length ≤ 10 := by
  unfold Dev.storedKey at h
  split at h
  · split at h
    · rename_i hk
      subst h
      exact (PathAndCurve.tryFromBytes_some hk).2
    · cases h
  · cases h

theorem Opens.compact {env : Env} (hs : env.cr.Sized) {s : Dev} {p1 p2 : UInt8} {payload : Option Bytes} {c : Cmd}
    {v : View} {p : Option (Path × Curve)} {u : Upl} (h : Opens env s p1 p2 payload c v p u) : v.Compact := by
  cases h with
  | operation hu hc hp hd ho => exact hs.blake2b hd
  | michelson hu hc hp hd => exact hs.blake2b hd
  | baking hu hc hp hk hd ho hn hop => exact hs.blake2b hd
  | addr hcmd hc hp hr hk ha => exact ⟨newAddr_length hs ha, key_short hs hk⟩
  | query h1 hk ha => exact storedKey_le hk
  | _ => trivial

/-- The data of a result leaves room for the status word in 134 bytes. -/
def Res.Small (r : Res) : Prop :=
  (∀ d, r.out = .ok d → d.length ≤ 132) ∧ ∀ e, r.out = .shown (some e) → e.length ≤ 134

/-- The reply has at most 134 bytes. -/
def Output.Short (o : Output) : Prop := ∀ bs, o.reply = some bs → bs.length ≤ 134

theorem statusWord_length (e : ApduError) : (statusWord e).length = 2 := by simp [statusWord]

theorem Res.Bad.small {r : Res} (h : r.Bad) : r.Small := by
  obtain ⟨_, ⟨e, _, h⟩ | ⟨f, h⟩⟩ := h <;> constructor <;> intro d hd <;> rw [h] at hd <;> cases hd

theorem Res.Fails.small {s : Dev} {r : Res} (h : r.Fails s) : r.Small := h.bad.small

theorem Res.small_of_ok {r : Res} {d : Bytes} (h : r.out = .ok d) (hd : d.length ≤ 132) : r.Small := by
  constructor <;> intro x hx <;> rw [h] at hx <;> cases hx
  exact hd

theorem Res.Small.short {r : Res} (h : r.Small) : r.deliver.2.Short := by
  intro bs hbs
  unfold Res.deliver at hbs
  split at hbs
  · rename_i d hd
    cases hbs
    have := h.1 d hd
    simp only [List.length_append, statusWord_length]
    omega
  · cases hbs
    rw [statusWord_length]
    omega
  · rename_i e he
    simp only at hbs
    subst hbs
    exact h.2 _ he
  · cases hbs

theorem keyReply_length (k : Bytes) : (keyReply k).length = k.length + 1 := by simp [keyReply]

theorem sigReply_length (h : Bool) (d sig : Bytes) : (sigReply h d sig).length ≤ d.length + sig.length := by
  unfold sigReply
  split <;> simp

theorem serialize_length (p : Path) : p.serialize.length = 1 + 4 * p.length := by
  unfold Path.serialize
  have : ∀ l : List UInt32, (l.flatMap be32).length = 4 * l.length := by
    intro l
    induction l with
    | nil => rfl
    | cons x xs ih => rw [List.flatMap_cons, List.length_append, ih, be32_length, List.length_cons]; omega
  rw [List.length_cons, this]
  omega

theorem Addr.base58_short {a : Addr} {t : Bytes} (h : a.base58 = .ok t) : t.length ≤ 37 := by
  unfold Addr.base58 at h
  have := base58Into_ok.mp h
  rw [this.2]
  exact this.1

theorem View.accept_small {env : Env} (hs : env.cr.Sized) {v : View} (hv : v.Compact) (s : Dev) :
    (v.accept env s).Small := by
  cases v with
  | sign h d p m =>
    cases View.accept_sign env h d p m s with
    | bad _ hb => exact hb.small
    | done path curve sig hp hsg hr =>
      have h1 := hs.sign hsg
      have h2 := sigReply_length h d sig
      have h3 : d.length = 32 := hv
      exact Res.small_of_ok (by rw [hr]) (by omega)
  | bakingSign h d r o m =>
    rcases s.bakingSign_cases env h d m with hf | ⟨k, sig, hk, hsg, hr⟩
    · exact hf.small
    · have h1 := hs.sign hsg
      have h2 := sigReply_length h d sig
      have h3 : d.length = 32 := hv
      exact Res.small_of_ok (r := View.accept env (.bakingSign h d r o m) s) (by rw [View.accept, hr]) (by omega)
  | addr a k w =>
    simp only [View.accept]
    split
    · split
      · exact (s.fault_fails _).small
      · rename_i t ht
        have h1 := Addr.base58_short ht
        have h2 : k.length ≤ 65 := hv.2
        exact Res.small_of_ok rfl (by rw [List.length_append, keyReply_length]; omega)
    · have h2 : k.length ≤ 65 := hv.2
      exact Res.small_of_ok rfl (by rw [keyReply_length]; omega)
  | query k a w =>
    have h : k.path.length ≤ 10 := hv
    refine Res.small_of_ok (r := View.accept env (.query k a w) s) rfl ?_
    rw [List.length_append, serialize_length]
    split <;> simp only [List.length_cons, List.length_nil] <;> omega
  | authorize k a =>
    cases View.accept_authorize env k a s with
    | none _ hb => exact hb.small
    | key _ _ hb => exact hb.small
    | done _ _ _ hd =>
      obtain ⟨key, hk, hout⟩ := hd
      have := key_short hs hk
      exact Res.small_of_ok hout (by rw [keyReply_length]; omega)
  | deauthorize a =>
    cases View.accept_deauthorize env a s with
    | key _ _ hb => exact hb.small
    | done _ _ _ hout => exact Res.small_of_ok hout (by simp)
  | setup k a m t ch =>
    cases View.accept_setup env k a m t ch s with
    | none _ hb => exact hb.small
    | key _ _ hb => exact hb.small
    | main _ _ _ hb => exact hb.small
    | test _ _ _ _ hb => exact hb.small
    | chain _ _ _ _ h' =>
      rcases h' with ⟨_, hb⟩ | ⟨_, _, key, hk, hout⟩
      · exact hb.small
      · have := key_short hs hk
        exact Res.small_of_ok hout (by rw [keyReply_length]; omega)

theorem Dev.show_small (env : Env) (v : View) (s : Dev) : (s.show env v).Small := by
  unfold Dev.show
  simp only
  split <;> constructor <;> intro d hd <;> cases hd
  rw [statusWord_length]
  omega

theorem Dev.resetHwm_small (env : Env) (l : UInt32) (s : Dev) : (s.resetHwm env l).Small := by
  cases s.resetHwm_cases env l with
  | main _ _ hb => exact hb.small
  | test _ _ _ hb => exact hb.small
  | chain _ _ _ h' =>
    rcases h' with ⟨_, hb⟩ | ⟨_, _, hout, _⟩
    · exact hb.small
    · exact Res.small_of_ok hout (by simp)
  | init _ _ _ _ h' =>
    rcases h' with ⟨_, hb⟩ | ⟨_, hout, _⟩
    · exact hb.small
    · exact Res.small_of_ok hout (by simp)

theorem Res.Small.of_out {r r' : Res} (h : r.Small) (ho : r'.out = r.out) : r'.Small := by
  unfold Res.Small
  rw [ho]
  exact h

theorem Dev.cmdHmac_small {env : Env} (hs : env.cr.Sized) (p2 : UInt8) (payload : Option Bytes) (s : Dev) :
    (s.cmdHmac env p2 payload).Small := by
  unfold Dev.cmdHmac
  repeat' split
  all_goals first
    | exact (s.fail_fails _).small
    | (simp only
       repeat' split
       all_goals first
         | exact (s.fail_fails _).small
         | (rename_i hm
            have := hs.hmac hm
            exact Res.small_of_ok rfl (by omega)))

theorem Dev.cmdUpload_small {env : Env} (acc : Accessor) (p1 p2 : UInt8) (payload : Option Bytes)
    (finish : UInt8 → Bytes → Bytes → MemRef → Dev → Res) (s : Dev) :
    (s.cmdUpload env acc p1 p2 payload finish).Small ∨ ∃ q2 first data ref s',
      (s.cmdUpload env acc p1 p2 payload finish).out = (finish q2 first data ref s').out := by
  unfold Dev.cmdUpload
  simp only
  split
  · exact .inl (Res.small_of_ok rfl (by simp))
  · left
    constructor <;> intro d hd <;> cases hd
  · exact .inl (Dev.fault_fails _ _).small
  · exact .inl (Dev.fault_fails _ _).small
  · exact .inr ⟨_, _, _, _, _, rfl⟩

/-- The data of every command's reply has at most 132 bytes. -/
theorem Dev.exec_small {cfg : Config} {env : Env} (hs : env.cr.Sized) (hc : cfg.commit.length ≤ 8) (c : Cmd)
    (p1 p2 : UInt8) (payload : Option Bytes) (s : Dev) : (s.exec cfg env c p1 p2 payload).Small := by
  have hx := s.exec_cases cfg env c p1 p2 payload
  cases hx with
  | opened v p u u' ho hout hsig hst hupl => exact ((s.withUpload p u).show_small env v).of_out hout
  | reset p hc hp hl hr => rw [hr]; exact s.resetHwm_small env _
  | auto h u u' q2 first data ref k digest hc hu hcv hp hk hd hm hout hsig hst =>
    refine Res.Small.of_out ?_ hout
    rcases (s.withUpload s.path u).autoSign_cases env h digest data (specDecide data)
      (fun _ _ => specDecide_error) with hf | ⟨b, w, hb, hdec, hf | ⟨hw, k', sig, hk', hsg, hre⟩⟩
    · exact hf.small
    · exact Res.Fails.small hf
    · have h1 := hs.sign hsg
      have h2 := sigReply_length h digest sig
      have h3 := hs.blake2b hd
      exact Res.small_of_ok (by rw [hre]) (by omega)
  | still p u hstill hp =>
    cases c with
    | reset =>
      rcases s.cmdReset_cases env payload with h | ⟨p, hp, hl, h⟩
      · exact h.small
      · exact (s.resetHwm_small env _).of_out (r' := s.cmdReset env payload) (by rw [h])
    | queryMain =>
      show s.cmdQueryMain.Small
      unfold Dev.cmdQueryMain
      split
      · exact Res.small_of_ok rfl (by rw [be32_length]; omega)
      · exact Res.small_of_ok rfl (by rw [be32_length]; omega)
      · exact (s.fail_fails _).small
      · exact (s.fault_fails _).small
    | queryAll =>
      show s.cmdQueryAll.Small
      unfold Dev.cmdQueryAll
      split
      · rename_i b hb
        refine Res.small_of_ok rfl ?_
        unfold Dev.allHwm at hb
        split at hb
        · split at hb
          · split at hb
            · cases hb
              simp [be32_length]
            · rename_i hn; exact absurd hb (hn _)
          · rename_i hn; exact absurd hb (hn _)
        · rename_i hn; exact absurd hb (hn _)
      · exact Res.small_of_ok rfl (by decide)
      · exact (s.fail_fails _).small
      · exact (s.fault_fails _).small
    | authorize =>
      rcases s.cmdAuthorize_cases env p1 p2 payload with h | ⟨k, p, a, h1, hc, hp, hr, ha, h⟩
      · exact h.small
      · exact (s.show_small env _).of_out (r' := s.cmdAuthorize env p1 p2 payload) (by rw [h])
    | deauthorize =>
      rcases s.cmdDeauthorize_cases env p1 with h | ⟨k, a, h1, hk, ha, h⟩
      · exact h.small
      · exact (s.show_small env _).of_out (r' := s.cmdDeauthorize env p1) (by rw [h])
    | queryAuth wc =>
      rcases s.cmdQueryAuth_cases env wc p1 with h | ⟨k, a, hk, ha, ⟨h1, h⟩ | ⟨_, h⟩⟩
      · exact h.small
      · exact (s.show_small env _).of_out (r' := s.cmdQueryAuth env wc p1) (by rw [h])
      · exact (View.accept_small hs (v := .query k a wc) (storedKey_le hk) s).of_out
          (r' := s.cmdQueryAuth env wc p1) (by rw [h]; rfl)
    | setup =>
      rcases s.cmdSetup_cases env p2 payload with h | ⟨k, p, a, hc, hp, hl, hn, hr, ha, h⟩
      · exact h.small
      · exact (s.show_small env _).of_out (r' := s.cmdSetup env p2 payload) (by rw [h])
    | hmac => exact Dev.cmdHmac_small hs p2 payload s
    | legacyVersion => exact Res.small_of_ok (r := s.ok _) rfl (by simp)
    | git => exact Res.small_of_ok (r := s.ok _) rfl (by simp; omega)
    | version => exact Res.small_of_ok (r := s.ok _) rfl (by simp [be32_length])
    | getKey =>
      rcases s.cmdGetKey_cases env p2 payload with h | ⟨k, p, key, _, _, _, hk, h⟩
      · exact h.small
      · have := key_short hs hk
        exact Res.small_of_ok (r := s.cmdGetKey env p2 payload) (by rw [h]; rfl) (by rw [keyReply_length]; omega)
    | promptAddr =>
      rcases s.cmdAddr_cases env true p2 payload with h | ⟨k, p, key, a, hc, hp, hr, hk, ha, ⟨_, h⟩ | ⟨h, _⟩⟩
      · exact h.small
      · exact (s.show_small env _).of_out (r' := s.cmdAddr env true p2 payload) (by rw [h])
      · cases h
    | getAddr =>
      rcases s.cmdAddr_cases env (p1 ≥ 1) p2 payload with
        h | ⟨k, p, key, a, hc, hp, hr, hk, ha, ⟨h1, h⟩ | ⟨_, t, ht, h⟩⟩
      · exact h.small
      · exact (s.show_small env _).of_out (r' := s.cmdAddr env (p1 ≥ 1) p2 payload) (by rw [h])
      · have h1 := key_short hs hk
        have h2 := Addr.base58_short ht
        exact Res.small_of_ok (r := s.cmdAddr env (p1 ≥ 1) p2 payload) (by rw [h]; rfl)
          (by rw [List.length_append, keyReply_length]; omega)
    | bakerSign h =>
      rcases s.cmdUpload_small (env := env) .baking p1 p2 payload
        (fun p2 first data ref s => s.bakerSign env h p2 first data ref) with hh | ⟨q2, first, data, ref, s', hh⟩
      · exact hh
      · refine Res.Small.of_out ?_ hh
        rcases s'.bakerSign_cases env h q2 first data ref with
          hf | ⟨k, digest, hc, hp, hk, hd, ⟨hm, hb⟩ | ⟨rem, hrem, hb⟩⟩
        · exact hf.small
        · rw [hb]
          rcases s'.autoSign_cases env h digest data (specDecide data)
            (fun _ _ => specDecide_error) with hf | ⟨b, w, hb, hdec, hf | ⟨hw, k', sig, hk', hsg, hre⟩⟩
          · exact hf.small
          · exact Res.Fails.small hf
          · have h1 := hs.sign hsg
            have h2 := sigReply_length h digest sig
            have h3 := hs.blake2b hd
            exact Res.small_of_ok (by rw [hre]) (by omega)
        · rw [hb]
          rcases s'.handleDelegation_cases env h digest rem data _ with
            hf | ⟨branch, ops, rest, op, ho, hn, hop, hshow⟩
          · exact hf.small
          · rw [hshow]
            exact Dev.show_small _ _ _
    | sign h =>
      rcases s.cmdUpload_small (env := env) .sign p1 p2 payload
        (fun p2 first data ref s => s.startSign env h p2 first data ref) with hh | ⟨q2, first, data, ref, s', hh⟩
      · exact hh
      · refine Res.Small.of_out ?_ hh
        rcases s'.startSign_cases env h q2 first data ref with
          hf | ⟨k, hc, hp, hf | ⟨digest, hd, ⟨rem, ops, hrem, ho, hshow⟩ | ⟨rem, hrem, hshow⟩⟩⟩
        · exact hf.small
        · exact Res.Fails.small hf
        · rw [hshow]
          exact Dev.show_small _ _ _
        · rw [hshow]
          exact Dev.show_small _ _ _

theorem Dev.reject_short (s : Dev) : s.reject.2.Short := by
  intro bs h
  unfold Dev.reject at h
  dsimp only at h
  split at h <;> cases h
  rw [statusWord_length]
  omega

theorem Dev.acceptError_short (s : Dev) : s.acceptError.2.Short := by
  intro bs h
  unfold Dev.acceptError at h
  dsimp only at h
  split at h <;> cases h
  rw [statusWord_length]
  omega

theorem Dev.onError_short (c : Bool) (f : XError → XError) (s : Dev) : (s.onError c f).2.Short := by
  unfold Dev.onError
  split
  · exact s.acceptError_short
  · intro bs h
    cases h

theorem Dev.redraw_short (u : Upd) (s : Dev) : (s.redraw u).2.Short := by
  unfold Dev.redraw
  cases u with
  | rejected z => exact Dev.reject_short _
  | _ => intro bs h; cases h

theorem Dev.approve_short {env : Env} (hs : env.cr.Sized) {s : Dev} (hv : s.Pending View.Compact) :
    (s.approve env).2.Short := by
  unfold Dev.approve
  dsimp only
  split
  · intro bs h
    cases h
  · rename_i v hview
    exact (View.accept_small hs (hv v hview) _).short

theorem Dev.pressBoth_short {env : Env} (hs : env.cr.Sized) {s : Dev} (hv : s.Pending View.Compact) :
    (s.pressBoth env).2.Short := by
  have jump : ∀ r : Dev × Output, r.2.Short →
      (if r.1.running = true ∧ r.1.zui.jumps = true then
        ((r.1.redraw (r.1.zui.expertJump (r.1.viewer env))).1,
          (⟨r.2.reply <|> (r.1.redraw (r.1.zui.expertJump (r.1.viewer env))).2.reply, r.2.sig,
            r.2.fault <|> (r.1.redraw (r.1.zui.expertJump (r.1.viewer env))).2.fault⟩ : Output))
        else r).2.Short := by
    intro r hr
    split
    · intro bs h
      cases hb : r.2.reply with
      | none =>
        rw [hb] at h
        exact Dev.redraw_short _ _ bs h
      | some b =>
        rw [hb] at h
        cases h
        exact hr _ hb
    · exact hr
  unfold Dev.pressBoth
  dsimp only
  split
  · exact jump _ (Dev.approve_short hs hv)
  · exact jump _ s.reject_short
  · exact jump _ (fun bs h => by cases h)

theorem Output.quiet_short : Output.quiet.Short := fun bs h => by cases h

theorem Dev.dispatch_small {cfg : Config} {env : Env} (hs : env.cr.Sized) (hc : cfg.commit.length ≤ 8) (buf : Bytes)
    (rx : Nat) (s : Dev) : (s.dispatch cfg env buf rx).Small := by
  unfold Dev.dispatch
  split
  · exact (s.fail_fails _).small
  · split
    · exact (s.fail_fails _).small
    · split
      · exact (s.fail_fails _).small
      · exact Dev.exec_small hs hc _ _ _ _ s

theorem Dev.step_short {cfg : Config} {env : Env} (hs : env.cr.Sized) (hc : cfg.commit.length ≤ 8) (ev : Event)
    {s : Dev} (hv : s.Pending View.Compact) : (s.step cfg env ev).2.Short := by
  cases ev with
  | relaunch => exact Output.quiet_short
  | expert =>
    simp only [Dev.step]
    split <;> exact Output.quiet_short
  | apdu buf rx =>
    simp only [Dev.step]
    split
    · exact (Dev.dispatch_small hs hc buf rx s).short
    · exact Output.quiet_short
  | left =>
    simp only [Dev.step]
    split
    · split
      · exact Dev.redraw_short _ _
      · exact Dev.onError_short _ _ _
      · exact Output.quiet_short
    · exact Output.quiet_short
  | right =>
    simp only [Dev.step]
    split
    · split
      · exact Dev.redraw_short _ _
      · exact Dev.onError_short _ _ _
      · exact Output.quiet_short
    · exact Output.quiet_short
  | both =>
    simp only [Dev.step]
    split
    · split
      · exact Dev.pressBoth_short hs hv
      · exact Dev.onError_short _ _ _
      · exact Output.quiet_short
    · exact Output.quiet_short

/-- C80: whatever the host and the user do, no reply is longer than 134 bytes. -/
theorem C80_replies_fit (cfg : Config) (hc : cfg.commit.length ≤ 8) (new : NewDevice) (es : List (Env × Event))
    (hs : ∀ e ∈ es, e.1.cr.Sized) (o : Output) (ho : o ∈ ((Dev.factory new).run cfg es).2) (bs : Bytes)
    (hbs : o.reply = some bs) : bs.length ≤ 134 := by
  have main : ∀ s : Dev, s.Pending View.Compact → o ∈ (s.run cfg es).2 → o.Short := by
    clear ho
    induction es with
    | nil => intro s _ ho; cases ho
    | cons e es ih =>
      intro s hv ho
      have he := hs e (by simp)
      rcases List.mem_cons.mp ho with rfl | ho
      · exact Dev.step_short he hc _ hv
      · exact ih (fun e he => hs e (by simp [he])) _ (hv.step fun _ _ _ _ _ _ _ hop => hop.compact he) ho
  exact main _ (Dev.Pending.factory _ new) ho bs hbs

/-! ### The board does what the app does -/

/-- The event of the app for an input. -/
def Board.event (x : Board) : Input → Event
  | .command data => .apdu (x.receive data).buf (data.take exchangeSize).length
  | .left => .left
  | .right => .right
  | .both => .both
  | .expert => .expert
  | .relaunch _ => .relaunch

/-- The events of the app for a history of the board. -/
def Board.events (L : Layout) (cfg : Config) (x : Board) : List (Env × Input) → List (Env × Event)
  | [] => []
  | (env, i) :: es => (env, x.event i) :: (x.step L cfg env i).1.events L cfg es

/-- The review is in its place. -/
structure Board.Sound (L : Layout) (x : Board) : Prop where
  len : x.buf.length = exchangeSize
  size : x.size ≤ 126
  kept : x.dev.running = true → ∀ v, x.dev.view = some v →
    x.size = (L.store v).length ∧ x.buf.drop (exchangeSize - x.size) = L.store v
  compact : x.dev.Pending View.Compact

theorem overwrite_drop {mem bs : Bytes} {n : Nat} (h : bs.length ≤ n) : (overwrite mem 0 bs).drop n = mem.drop n := by
  unfold overwrite
  simp only [List.take_zero, List.nil_append, Nat.zero_add]
  rw [List.drop_append, List.drop_of_length_le h, List.nil_append, List.drop_drop]
  congr 1
  omega

theorem overwrite_tail {mem bs : Bytes} {n : Nat} (hm : mem.length = n) (h : bs.length ≤ n) :
    (overwrite mem (n - bs.length) bs).drop (n - bs.length) = bs := by
  unfold overwrite
  rw [List.drop_of_length_le (l := mem) (by omega), List.append_nil,
    List.drop_append_of_le_length (by simp; omega), List.drop_of_length_le (by simp), List.nil_append]

theorem fit_length (n : Nat) (bs : Bytes) : (fit n bs).length = n := by simp [fit]

theorem Board.Sound.load {L : Layout} {x : Board} (h : x.Sound L) (hrun : x.dev.running = true) : x.load L = x := by
  unfold Board.load
  cases hv : x.dev.view with
  | none =>
    have : x.dev = { x.dev with view := none } := by rw [← hv]
    simp only [Option.map_none]
    rw [← this]
  | some v =>
    have hk := (h.kept hrun v hv).2
    simp only [Option.map_some, hk, L.load_store]
    rw [← hv]

/-- The command arrives while no review is pending, or is short enough not to reach the review. -/
def Board.Clear (x : Board) (i : Input) : Prop :=
  ∀ data, i = .command data → x.dev.running = true → x.dev.view ≠ none → data.length + x.size ≤ exchangeSize

theorem Board.Sound.receive {L : Layout} {x : Board} (h : x.Sound L) (hrun : x.dev.running = true) {data : Bytes}
    (hc : x.Clear (.command data)) : (x.receive data).Sound L := by
  refine ⟨?_, h.size, fun _ v hv => ?_, h.compact⟩
  · rw [Board.receive, overwrite_length]
    · exact h.len
    · rw [h.len, List.length_take]; omega
  · have hl := hc data rfl hrun (by rw [show x.dev.view = some v from hv]; simp)
    obtain ⟨h1, h2⟩ := h.kept hrun v hv
    refine ⟨h1, ?_⟩
    show (overwrite x.buf 0 (data.take exchangeSize)).drop (exchangeSize - x.size) = L.store v
    rw [overwrite_drop (by rw [List.length_take]; omega)]
    exact h2

/-- A short reply leaves the review in its place. -/
theorem Board.Sound.reply {L : Layout} {x : Board} (h : x.Sound L) {room : Nat} {bs : Bytes} (hb : bs.length ≤ 134)
    (hr : 134 ≤ room) (out : Output) :
    (x.reply room bs out).1.Sound L ∧ (x.reply room bs out).1.dev = x.dev ∧ (x.reply room bs out).2 = out := by
  have hs := h.size
  have hl := h.len
  have he : exchangeSize = 260 := rfl
  unfold Board.reply
  rw [if_pos (by omega)]
  refine ⟨⟨?_, hs, fun hrun v hv => ?_, h.compact⟩, rfl, rfl⟩
  · rw [overwrite_length (by omega)]
    exact hl
  · obtain ⟨h1, h2⟩ := h.kept hrun v hv
    refine ⟨h1, ?_⟩
    show (overwrite x.buf 0 bs).drop (exchangeSize - x.size) = L.store v
    rw [overwrite_drop (by omega)]
    exact h2

/-- Only opening a review changes it. -/
theorem Dev.dispatch_view (cfg : Config) (env : Env) (buf : Bytes) (rx : Nat) (s : Dev) :
    (s.dispatch cfg env buf rx).st.view = s.view ∨ (∃ e, (s.dispatch cfg env buf rx).out = .shown e) ∨
      ∃ f, (s.dispatch cfg env buf rx).out = .fault f := by
  unfold Dev.dispatch
  split
  · exact .inl rfl
  · split
    · exact .inl rfl
    · split
      · exact .inl rfl
      · rename_i c _
        cases s.exec_cases cfg env c (buf.getD 2 0) (buf.getD 3 0) (apduPayload buf) with
        | still p u hs _ => rw [hs.1]; exact .inl rfl
        | opened v p u u' ho hout hsig hst hupl =>
          right
          rw [hout]
          unfold Dev.show
          simp only
          split
          · exact .inl ⟨_, rfl⟩
          · exact .inl ⟨_, rfl⟩
          · exact .inl ⟨_, rfl⟩
          · exact .inr ⟨_, rfl⟩
          · exact .inr ⟨_, rfl⟩
        | reset p hc hp hl hr => rw [hr]; exact .inl (Dev.resetHwm_view ..)
        | auto h u u' q2 first data ref k digest hc hu hcv hp hk hd hm hout hsig hst =>
          left
          rw [hst]
          exact Dev.autoSign_view _ _ _ _ _ _ (fun _ _ => specDecide_error)

theorem Res.deliver_running {r : Res} (h : ∀ f, r.out ≠ .fault f) : r.deliver.1 = r.st := by
  unfold Res.deliver
  split
  · rfl
  · rfl
  · rfl
  · rename_i f hf
    exact absurd hf (h f)

theorem Board.Sound.handle {L : Layout} {cfg : Config} (hcm : cfg.commit.length ≤ 8) {env : Env}
    (hs : env.cr.Sized) {x : Board} (h : x.Sound L) (hrun : x.dev.running = true) (rx : Nat)
    (hcompact : (x.dev.dispatch cfg env x.buf rx).deliver.1.Pending View.Compact) :
    (x.handle L cfg env rx).1.Sound L ∧
    (x.handle L cfg env rx).1.dev = (x.dev.dispatch cfg env x.buf rx).deliver.1 ∧
    (x.handle L cfg env rx).2 = (x.dev.dispatch cfg env x.buf rx).deliver.2 := by
  have hsm := Dev.dispatch_small hs hcm x.buf rx x.dev
  have hview := x.dev.dispatch_view cfg env x.buf rx
  have he : exchangeSize = 260 := rfl
  have hsz := h.size
  have hlen := h.len
  unfold Board.handle
  dsimp only
  generalize x.dev.dispatch cfg env x.buf rx = r at *
  cases hout : r.out with
  | ok d =>
    dsimp only
    have hst : r.deliver.1 = r.st := Res.deliver_running (by rw [hout]; intro f hf; cases hf)
    refine Board.Sound.reply (x := { x with dev := r.deliver.1 }) ⟨hlen, hsz, fun _ v hv => ?_, hcompact⟩ ?_
      (by omega) _
    · rcases hview with hv' | ⟨e, he⟩ | ⟨f, hf⟩
      · exact h.kept hrun v (by rw [← hv', ← hst]; exact hv)
      · rw [hout] at he; cases he
      · rw [hout] at hf; cases hf
    · have := hsm.1 d hout
      rw [List.length_append, statusWord_length]
      omega
  | err e =>
    dsimp only
    have hst : r.deliver.1 = r.st := Res.deliver_running (by rw [hout]; intro f hf; cases hf)
    refine Board.Sound.reply (x := { x with dev := r.deliver.1 }) ⟨hlen, hsz, fun _ v hv => ?_, hcompact⟩ ?_
      (by omega) _
    · rcases hview with hv' | ⟨e, he⟩ | ⟨f, hf⟩
      · exact h.kept hrun v (by rw [← hv', ← hst]; exact hv)
      · rw [hout] at he; cases he
      · rw [hout] at hf; cases hf
    · rw [statusWord_length]
      omega
  | shown early =>
    dsimp only
    have hst : r.deliver.1 = r.st := Res.deliver_running (by rw [hout]; intro f hf; cases hf)
    cases hv : r.st.view with
    | none =>
      refine Board.Sound.reply (x := { x with dev := r.deliver.1 }) ⟨hlen, hsz, fun _ v hw => ?_, hcompact⟩ ?_
        (by omega) _
      · have hw' : r.deliver.1.view = some v := hw
        rw [hst, hv] at hw'
        cases hw'
      · rw [statusWord_length]
        omega
    | some v =>
      have hfit := L.small v
      refine Board.Sound.reply (x := Board.store L v { x with dev := r.deliver.1 })
        ⟨?_, hfit, fun _ w hw => ?_, hcompact⟩ ?_ (by omega) _
      · show (overwrite x.buf _ _).length = _
        rw [overwrite_length (by omega)]
        exact hlen
      · have hw' : r.deliver.1.view = some w := hw
        rw [hst, hv] at hw'
        cases hw'
        exact ⟨rfl, overwrite_tail hlen (by omega)⟩
      · rw [statusWord_length]
        omega
  | fault f =>
    dsimp only
    refine ⟨⟨hlen, hsz, fun hr => ?_, hcompact⟩, rfl, rfl⟩
    have hr : r.deliver.1.running = true := hr
    unfold Res.deliver at hr
    rw [hout] at hr
    cases hr

/-- Buttons and the menu do not open reviews. -/
theorem Dev.button_view {cfg : Config} {env : Env} {ev : Event} {s : Dev} (h : ∀ buf rx, ev ≠ .apdu buf rx) :
    (s.step cfg env ev).1.view = s.view ∨ (s.step cfg env ev).1.view = none := by
  rcases s.step_view cfg env ev with h' | h' | ⟨v, hv⟩
  · exact .inl h'
  · exact .inr h'
  · obtain ⟨buf, rx, c, p, u, hr, _⟩ := hv.ex
    exact absurd hr.ev (h buf rx)

theorem Board.Sound.press {L : Layout} {cfg : Config} (hcm : cfg.commit.length ≤ 8) {env : Env}
    (hs : env.cr.Sized) {x : Board} (h : x.Sound L) {ev : Event} (hev : ∀ buf rx, ev ≠ .apdu buf rx)
    (hidle : x.dev.running = false → x.dev.step cfg env ev = (x.dev, .quiet)) :
    (x.press L cfg env ev).1.Sound L ∧ (x.press L cfg env ev).1.dev = (x.dev.step cfg env ev).1 ∧
    (x.press L cfg env ev).2 = (x.dev.step cfg env ev).2 := by
  have he : exchangeSize = 260 := rfl
  have hsz := h.size
  unfold Board.press
  by_cases hrun : x.dev.running = true
  · rw [if_pos hrun, h.load hrun]
    have hshort := Dev.step_short hs hcm ev h.compact
    have hsound : Board.Sound L { x with dev := (x.dev.step cfg env ev).1 } := by
      refine ⟨h.len, hsz, fun _ v hv => ?_, h.compact.step fun _ _ _ _ _ _ _ ho => ho.compact hs⟩
      have hv : (x.dev.step cfg env ev).1.view = some v := hv
      rcases Dev.button_view (cfg := cfg) (env := env) (s := x.dev) hev with hw | hw
      · exact h.kept hrun v (by rw [← hw]; exact hv)
      · rw [hw] at hv
        cases hv
    dsimp only
    cases hrep : (x.dev.step cfg env ev).2.reply with
    | none => exact ⟨hsound, rfl, rfl⟩
    | some bs => exact hsound.reply (hshort bs hrep) (by omega) _
  · rw [if_neg hrun, hidle (by simpa using hrun)]
    exact ⟨h, rfl, rfl⟩

theorem Board.Sound.step {L : Layout} {cfg : Config} (hcm : cfg.commit.length ≤ 8) {env : Env}
    (hs : env.cr.Sized) {x : Board} (h : x.Sound L) {i : Input} (hc : x.Clear i) :
    (x.step L cfg env i).1.Sound L ∧ (x.step L cfg env i).1.dev = (x.dev.step cfg env (x.event i)).1 ∧
    (x.step L cfg env i).2 = (x.dev.step cfg env (x.event i)).2 := by
  cases i with
  | command data =>
    simp only [Board.step, Board.event, Dev.step]
    by_cases hrun : x.dev.running = true
    · rw [if_pos hrun, if_pos hrun]
      have h' := h.receive hrun hc
      rw [h'.load hrun]
      refine h'.handle hcm hs hrun _ ?_
      have := h.compact.step (cfg := cfg) (ev := .apdu (x.receive data).buf (data.take exchangeSize).length)
        (fun _ _ _ _ _ _ _ ho => ho.compact hs)
      simp only [Dev.step, if_pos hrun] at this
      exact this
    · rw [if_neg hrun, if_neg hrun]
      exact ⟨h, rfl, rfl⟩
  | left => exact h.press hcm hs (by simp) (fun hr => by simp [Dev.step, hr])
  | right => exact h.press hcm hs (by simp) (fun hr => by simp [Dev.step, hr])
  | both => exact h.press hcm hs (by simp) (fun hr => by simp [Dev.step, hr])
  | expert => exact h.press hcm hs (by simp) (fun hr => by simp [Dev.step, hr])
  | relaunch ram =>
    exact ⟨⟨fit_length _ _, Nat.zero_le _, fun _ v hv => (by cases hv), fun v hv => (by cases hv)⟩, rfl, rfl⟩

theorem Board.Sound.factory (L : Layout) (new : NewDevice) (ram : Bytes) : (Board.factory new ram).Sound L :=
  ⟨fit_length _ _, Nat.zero_le _, fun _ v hv => (by cases hv), fun v hv => (by cases hv)⟩

/-- What an input is for the app: a command is in a buffer of 260 bytes, cut to them. -/
inductive Reaches : Env × Input → Env × Event → Prop where
  | command {env : Env} {data buf : Bytes} (hl : buf.length = 260) (h : buf.take (min data.length 260) = data.take 260) :
      Reaches (env, .command data) (env, .apdu buf (min data.length 260))
  | left {env : Env} : Reaches (env, .left) (env, .left)
  | right {env : Env} : Reaches (env, .right) (env, .right)
  | both {env : Env} : Reaches (env, .both) (env, .both)
  | expert {env : Env} : Reaches (env, .expert) (env, .expert)
  | relaunch {env : Env} {ram : Bytes} : Reaches (env, .relaunch ram) (env, .relaunch)

theorem Board.Sound.reaches {L : Layout} {x : Board} (h : x.Sound L) (env : Env) (i : Input) :
    Reaches (env, i) (env, x.event i) := by
  cases i with
  | command data =>
    have hb : (x.receive data).buf.length = 260 := by
      rw [Board.receive, overwrite_length]
      · exact h.len
      · rw [h.len, List.length_take]; omega
    have hm : (data.take exchangeSize).length = min data.length 260 := by
      rw [List.length_take, Nat.min_comm]; rfl
    show Reaches _ (env, .apdu (x.receive data).buf (data.take exchangeSize).length)
    rw [hm]
    refine .command hb ?_
    rw [← hm, Board.receive, overwrite_zero_take (Nat.le_refl _), List.take_length]
    rfl
  | left => exact .left
  | right => exact .right
  | both => exact .both
  | expert => exact .expert
  | relaunch ram => exact .relaunch

theorem Board.Sound.run {L : Layout} {cfg : Config} (hcm : cfg.commit.length ≤ 8) {es : List (Env × Input)}
    (hs : ∀ e ∈ es, e.1.cr.Sized) {x : Board} (h : x.Sound L) (hc : ∀ m ∈ x.trace L cfg es, m.board.Clear m.input) :
    List.Forall₂ Reaches es (x.events L cfg es) ∧ (x.run L cfg es).1.dev = (x.dev.run cfg (x.events L cfg es)).1 ∧
    (x.run L cfg es).2 = (x.dev.run cfg (x.events L cfg es)).2 ∧
    List.Forall₂ (fun a m => m.st = a.board.dev ∧ m.ev = a.board.event a.input ∧ m.out = a.out)
      (x.trace L cfg es) (x.dev.trace cfg (x.events L cfg es)) := by
  induction es generalizing x with
  | nil => exact ⟨.nil, rfl, rfl, .nil⟩
  | cons e es ih =>
    obtain ⟨env, i⟩ := e
    obtain ⟨h1, h2, h3⟩ := h.step hcm (hs (env, i) (by simp)) 
      (hc ⟨x, env, i, (x.step L cfg env i).2⟩ (by simp [Board.trace]))
    obtain ⟨g0, g1, g2, g3⟩ := ih (fun e he => hs e (by simp [he])) h1
      (fun m hm => hc m (by simp only [Board.trace, List.mem_cons]; exact .inr hm))
    rw [h2] at g1 g2 g3
    refine ⟨.cons (h.reaches env i) g0, g1, ?_, .cons ⟨rfl, rfl, h3.symm⟩ g3⟩
    show (x.step L cfg env i).2 :: _ = (x.dev.step cfg env (x.event i)).2 :: _
    rw [h3, g2]

theorem Board.sound_run {L : Layout} {cfg : Config} (hcm : cfg.commit.length ≤ 8) {es : List (Env × Input)}
    (hs : ∀ e ∈ es, e.1.cr.Sized) {x : Board} (h : x.Sound L) (hc : ∀ m ∈ x.trace L cfg es, m.board.Clear m.input) :
    (x.run L cfg es).1.Sound L := by
  induction es generalizing x with
  | nil => exact h
  | cons e es ih =>
    obtain ⟨env, i⟩ := e
    obtain ⟨h1, -⟩ := h.step hcm (hs (env, i) (by simp))
      (hc ⟨x, env, i, (x.step L cfg env i).2⟩ (by simp [Board.trace]))
    exact ih (fun e he => hs e (by simp [he])) h1
      (fun m hm => hc m (by simp only [Board.trace, List.mem_cons]; exact .inr hm))

/-- C80, as far as it holds: if every command that arrives while a review is pending is short enough to leave the review
alone, the board gives the replies and signatures of the app for the same events. What is missing: longer commands
(`C80_overwritten`). -/
theorem C80_same_as_app_partial (L : Layout) (cfg : Config) (hcm : cfg.commit.length ≤ 8) (new : NewDevice)
    (ram : Bytes) (es : List (Env × Input)) (hs : ∀ e ∈ es, e.1.cr.Sized)
    (hc : ∀ m ∈ (Board.factory new ram).trace L cfg es, ∀ data, m.input = .command data → m.board.dev.running = true →
      m.board.dev.view ≠ none → data.length + m.board.size ≤ 260) :
    ∃ evs, List.Forall₂ Reaches es evs ∧
      ((Board.factory new ram).run L cfg es).1.dev = ((Dev.factory new).run cfg evs).1 ∧
      ((Board.factory new ram).run L cfg es).2 = ((Dev.factory new).run cfg evs).2 := by
  obtain ⟨h1, h2, h3, _⟩ := (Board.Sound.factory L new ram).run hcm hs hc
  exact ⟨_, h1, h2, h3⟩

theorem Dev.trace_env {cfg : Config} {s : Dev} {es : List (Env × Event)} {m : Moment} (h : m ∈ s.trace cfg es) :
    ∃ e ∈ es, e.1 = m.env := by
  obtain ⟨a, b, h⟩ := List.append_of_mem h
  obtain ⟨ea, eb, rfl, -⟩ := Dev.trace_split h
  exact ⟨(m.env, m.ev), by simp, rfl⟩

theorem Reaches.envs {es : List (Env × Input)} {evs : List (Env × Event)} (h : List.Forall₂ Reaches es evs) {env : Env}
    (he : ∃ e ∈ evs, e.1 = env) : ∃ e ∈ es, e.1 = env := by
  induction h with
  | nil => obtain ⟨e, he, -⟩ := he; cases he
  | cons hr _ ih =>
    obtain ⟨e, he, rfl⟩ := he
    rcases List.mem_cons.mp he with rfl | he
    · exact ⟨_, List.mem_cons_self, by cases hr <;> rfl⟩
    · obtain ⟨e', h1, h2⟩ := ih ⟨e, he, rfl⟩
      exact ⟨e', List.mem_cons_of_mem _ h1, h2⟩

/-- C80: and then every signature given out is of the digest of its message. -/
theorem C80_signed_digest_partial (L : Layout) (cfg : Config) (hcm : cfg.commit.length ≤ 8) (new : NewDevice)
    (ram : Bytes) (es : List (Env × Input)) (hs : ∀ e ∈ es, e.1.cr.Sized)
    (hc : ∀ m ∈ (Board.factory new ram).trace L cfg es, ∀ data, m.input = .command data → m.board.dev.running = true →
      m.board.dev.view ≠ none → data.length + m.board.size ≤ 260)
    (o : Output) (ho : o ∈ ((Board.factory new ram).run L cfg es).2) (x : SigRec) (hx : o.sig = some x) :
    ∃ e ∈ es, e.1.cr.blake2b 32 x.msg = some x.digest := by
  obtain ⟨evs, h1, -, h3⟩ := C80_same_as_app_partial L cfg hcm new ram es hs hc
  rw [h3, Dev.trace_outputs, List.mem_map] at ho
  obtain ⟨m, hm, rfl⟩ := ho
  obtain ⟨past, rest, h⟩ := List.append_of_mem hm
  obtain ⟨r, buf, rx, ins, hr, -, -, -, -, hd, -⟩ := C45_reply_layout cfg new evs past rest m h x hx
  have hmem : r ∈ (Dev.factory new).trace cfg evs := by
    cases hr with
    | atOnce he => subst he; exact hm
    | approved v a b hp => rw [h, hp]; simp
  obtain ⟨e, he, heq⟩ := Reaches.envs h1 (Dev.trace_env hmem)
  exact ⟨e, he, by rw [heq]; exact hd⟩

/-- No command reaches the app while a review is pending. -/
def Orderly (t : List Moment) : Prop :=
  ∀ m ∈ t, m.st.running = true → m.st.view ≠ none → ∀ buf rx, m.ev ≠ .apdu buf rx

/-- C80: if no command arrives while a review is pending, the board gives the replies and signatures of the app, to
which no command comes while a review is pending. -/
theorem C80_same_as_app (L : Layout) (cfg : Config) (hcm : cfg.commit.length ≤ 8) (new : NewDevice)
    (ram : Bytes) (es : List (Env × Input)) (hs : ∀ e ∈ es, e.1.cr.Sized)
    (hc : ∀ m ∈ (Board.factory new ram).trace L cfg es, m.board.dev.running = true → m.board.dev.view ≠ none →
      ∀ data, m.input ≠ .command data) :
    ∃ evs, List.Forall₂ Reaches es evs ∧ Orderly ((Dev.factory new).trace cfg evs) ∧
      ((Board.factory new ram).run L cfg es).1.dev = ((Dev.factory new).run cfg evs).1 ∧
      ((Board.factory new ram).run L cfg es).2 = ((Dev.factory new).run cfg evs).2 := by
  obtain ⟨h1, h2, h3, h4⟩ := (Board.Sound.factory L new ram).run hcm hs
    (fun m hm data hd hr hv => absurd hd (hc m hm hr hv data))
  refine ⟨_, h1, ?_, h2, h3⟩
  change List.Forall₂ _ _ ((Dev.factory new).trace cfg _) at h4
  generalize (Dev.factory new).trace cfg _ = t at h4
  generalize (Board.factory new ram).trace L cfg es = b at h4 hc
  clear h1 h2 h3
  induction h4 with
  | nil => intro m hm; cases hm
  | @cons a m b t hab _ ih =>
    intro y hy hr hv buf rx he
    rcases List.mem_cons.mp hy with rfl | hy
    · obtain ⟨e1, e2, _⟩ := hab
      rw [e1] at hr hv
      have := hc a (by simp) hr hv
      rw [he] at e2
      cases hi : a.input with
      | command data => exact this data hi
      | _ => rw [hi] at e2; cases e2
    · exact ih (fun m hm => hc m (by simp [hm])) y hy hr hv buf rx he

/-! ### Reviews and keys when no command comes during a review -/

theorem Dev.step_dead {cfg : Config} {env : Env} {ev : Event} {s : Dev} (h : s.running = false) :
    (s.step cfg env ev).1 = s ∨ (s.step cfg env ev).1.view = none := by
  cases ev <;> simp [Dev.step, h, Dev.relaunch]

/-- While a review is pending that is approved later the app runs. -/
theorem Dev.trace_alive {cfg : Config} {s : Dev} {es : List (Env × Event)} {b rest : List Moment} {m : Moment}
    (h : s.trace cfg es = b ++ m :: rest) (hb : ∀ y ∈ b, y.st.view ≠ none) (hm : m.st.running = true)
    (hv : m.st.view ≠ none) : s.running = true ∧ ∀ y ∈ b, y.st.running = true := by
  induction b generalizing s es with
  | nil =>
    cases es with
    | nil => cases h
    | cons e es =>
      simp only [Dev.trace, List.nil_append, List.cons.injEq] at h
      obtain ⟨rfl, -⟩ := h
      exact ⟨hm, fun y hy => by cases hy⟩
  | cons y ys ih =>
    cases es with
    | nil => cases h
    | cons e es =>
      simp only [Dev.trace, List.cons_append, List.cons.injEq] at h
      obtain ⟨rfl, h⟩ := h
      obtain ⟨h1, h2⟩ := ih h (fun z hz => hb z (by simp [hz]))
      have hview : (s.step cfg e.1 e.2).1.view ≠ none := by
        cases ys with
        | nil =>
          cases es with
          | nil => cases h
          | cons e' es =>
            simp only [Dev.trace, List.nil_append, List.cons.injEq] at h
            rw [← h.1] at hv
            exact hv
        | cons z zs =>
          cases es with
          | nil => cases h
          | cons e' es =>
            simp only [Dev.trace, List.cons_append, List.cons.injEq] at h
            have := hb z (by simp)
            rw [← h.1] at this
            exact this
      have hrun : s.running = true := by
        by_contra hn
        rcases Dev.step_dead (cfg := cfg) (env := e.1) (ev := e.2) (s := s) (by simpa using hn) with hd | hd
        · rw [hd] at h1
          exact hn h1
        · exact hview hd
      exact ⟨hrun, fun z hz => by
        rcases List.mem_cons.mp hz with rfl | hz
        · exact hrun
        · exact h2 z hz⟩

theorem Event.packet_none {b : Build} {ev : Event} (h : ∀ buf rx, ev ≠ .apdu buf rx) : ev.packet b = none := by
  cases ev with
  | apdu buf rx => exact absurd rfl (h buf rx)
  | _ => rfl

/-- In an orderly history no signing packet comes between a request and its approval. -/
theorem Orderly.packets {cfg : Config} {s : Dev} {es : List (Env × Event)} {a b rest : List Moment} {m0 m : Moment}
    {v : View} (h : s.trace cfg es = (a ++ m0 :: b) ++ m :: rest) (ho : Orderly (s.trace cfg es))
    (hb : ∀ y ∈ b, y.st.view = some v) (ha : Approves m.st m.ev v) : ∀ y ∈ b, y.ev.packet cfg.build = none := by
  have ht : s.trace cfg es = a ++ m0 :: (b ++ m :: rest) := by rw [h]; simp
  obtain ⟨ea, eb, -, -, -, -, -, hrest⟩ := Dev.trace_split ht
  have hal := (Dev.trace_alive hrest.symm (fun y hy => by rw [hb y hy]; simp) ha.running
    (by rw [ha.view]; simp)).2
  intro y hy
  exact Event.packet_none (ho y (by rw [ht]; simp [hy]) (hal y hy) (by rw [hb y hy]; simp))

/-- C42 in full when no command reaches the app while a review is pending: a signature that is not of a consensus message
is given out when the user approves the review that the request for this message opened; the signed digest is that of
the message; and what was on the review all along was this message. -/
theorem C42_approved_is_reviewed_orderly (cfg : Config) (new : NewDevice) (es : List (Env × Event))
    (ho : Orderly ((Dev.factory new).trace cfg es)) (past rest : List Moment) (m : Moment)
    (h : (Dev.factory new).trace cfg es = past ++ m :: rest) (x : SigRec)
    (hx : m.out.sig = some x) (hm : Spec.isConsensusMagic x.msg = false) :
    ∃ v a m0 b, past = a ++ m0 :: b ∧ Approves m.st m.ev v ∧ m0.Opens cfg v ∧
      (∀ y ∈ b, y.st.view = some v ∧ ∀ w, ¬ y.Opens cfg w) ∧ m0.env.cr.blake2b 32 x.msg = some x.digest ∧
      ∀ y ∈ b ++ [m], ∃ w, y.st.viewer y.env = some w ∧ MessageReview cfg.build y.env.cr x.digest x.msg w := by
  obtain ⟨v, a, m0, b, rfl, ha, hop, hb, hd, hr⟩ := C42_approved_is_reviewed_partial cfg new es past rest m h x hx hm
  exact ⟨v, a, m0, b, rfl, ha, hop, hb, hd, hr (ho.packets h (fun y hy => (hb y hy).1) ha)⟩

/-- C43 in full when no command reaches the app while a review is pending: a signature that is not of a consensus message
is of the message completed by the packet that opened the approved review, and made with the curve and path given in
the opening packet of that upload. -/
theorem C43_requested_key_orderly (cfg : Config) (new : NewDevice) (hu : new.upload.length = uploadCapacity)
    (es : List (Env × Event)) (hg : ∀ e ∈ es, Good e.1 e.2) (ho : Orderly ((Dev.factory new).trace cfg es))
    (past rest : List Moment) (m : Moment) (h : (Dev.factory new).trace cfg es = past ++ m :: rest) (x : SigRec)
    (hx : m.out.sig = some x) (hm : Spec.isConsensusMagic x.msg = false) :
    ∃ v a m0 b k q2 first, past = a ++ m0 :: b ∧ Approves m.st m.ev v ∧ m0.Opens cfg v ∧
      m0.ev.packet cfg.build = some k ∧ (Spec.feed (sessionIn cfg a) k).2 = some (q2, first, x.msg) ∧
      Curve.ofByte q2 = some x.curve ∧ first = UInt8.ofNat x.path.length :: x.path.flatMap be32 := by
  obtain ⟨v, a, m0, b, k, q2, first, rfl, ha, hop, hb, hk, hf, hr⟩ :=
    C43_requested_key_partial cfg new hu es hg past rest m h x hx hm
  obtain ⟨h1, h2⟩ := hr (.inl (ho.packets h (fun y hy => (hb y hy).1) ha))
  exact ⟨v, a, m0, b, k, q2, first, rfl, ha, hop, hk, hf, h1, h2⟩

/-! ### A long command changes what is signed -/

namespace Demo

/-- A layout: signing reviews are their digest and a flag; the others need not be told apart. -/
def layout : Layout where
  store v := match v with
    | .sign h d _ _ => fit 32 d ++ [if h then 1 else 0]
    | .bakingSign h d _ _ _ => fit 32 d ++ [if h then 1 else 0]
    | _ => []
  load v bs := match v with
    | .sign h d p m =>
      if bs = fit 32 d ++ [if h then 1 else 0] then v else .sign (bs.getD 32 0 ≠ 0) (bs.take 32) p m
    | .bakingSign h d r o m =>
      if bs = fit 32 d ++ [if h then 1 else 0] then v else .bakingSign (bs.getD 32 0 ≠ 0) (bs.take 32) r o m
    | _ => v
  load_store v := by cases v <;> simp
  small v := by cases v <;> simp [fit]

/-- A command of the host. -/
def cmd (ins p1 p2 : UInt8) (data : Bytes) : Input :=
  .command ([0x80, ins, p1, p2, UInt8.ofNat data.length] ++ data)

/-- A request to sign, something the host sends during the review, and the approval. -/
def during (between : List Input) (m : Bytes) (pages : Nat) : List Input :=
  [cmd 0x04 0 0 keyPath, cmd 0x04 0x81 0 m] ++ between ++ List.replicate pages Input.right ++ [Input.both]

/-- 260 bytes no command starts with. -/
def long : Input := .command (List.replicate 260 7)

def board : Board := Board.factory ⟨.small, []⟩ []

end Demo

/-- C80 does not hold of all histories, whatever the layout: when a review is pending the host can send 260 bytes that are
refused (0x6e00) and make the review any it wants, that is, the one the bytes of its choice stand for. -/
theorem C80_host_writes_the_review (L : Layout) (cfg : Config) (hcm : cfg.commit.length ≤ 8) (new : NewDevice)
    (ram : Bytes) (es : List (Env × Input)) (hs : ∀ e ∈ es, e.1.cr.Sized)
    (hc : ∀ m ∈ (Board.factory new ram).trace L cfg es, ∀ data, m.input = .command data → m.board.dev.running = true →
      m.board.dev.view ≠ none → data.length + m.board.size ≤ 260)
    (x : Board) (hx : x = ((Board.factory new ram).run L cfg es).1) (hrun : x.dev.running = true) (v : View)
    (hv : x.dev.view = some v) (bs : Bytes) (hb : bs.length = (L.store v).length) (env : Env) :
    ∃ data, data.length = 260 ∧ x.step L cfg env (.command data) =
      (⟨{ x.dev with view := some (L.load v bs) }, [0x6e, 0x00] ++ data.drop 2, (L.store v).length⟩,
        ⟨some [0x6e, 0x00], none, none⟩) := by
  have hsound : x.Sound L := by
    subst hx
    exact Board.sound_run hcm hs (Board.Sound.factory L new ram) hc
  obtain ⟨hz, -⟩ := hsound.kept hrun v hv
  have hl := hsound.len
  have hsm := L.small v
  refine ⟨List.replicate (260 - bs.length) 0 ++ bs, by simp; omega, ?_⟩
  have hlen : (List.replicate (260 - bs.length) (0 : UInt8) ++ bs).length = 260 := by simp; omega
  have htake : (List.replicate (260 - bs.length) (0 : UInt8) ++ bs).take exchangeSize =
      List.replicate (260 - bs.length) 0 ++ bs := List.take_of_length_le (by rw [hlen]; exact Nat.le_refl _)
  have hrec : (x.receive (List.replicate (260 - bs.length) 0 ++ bs)).buf = List.replicate (260 - bs.length) 0 ++ bs := by
    show overwrite x.buf 0 _ = _
    rw [htake]
    unfold overwrite
    rw [List.take_zero, List.nil_append, List.drop_of_length_le (by rw [hl, hlen]; exact Nat.le_refl _),
      List.append_nil]
  have hdrop : (List.replicate (260 - bs.length) (0 : UInt8) ++ bs).drop (exchangeSize - x.size) = bs := by
    rw [hz, ← hb]
    exact List.drop_left' (by simp; rfl)
  have h0 : (List.replicate (260 - bs.length) (0 : UInt8) ++ bs).getD 0 0 = 0 := by
    obtain ⟨n, hn⟩ : ∃ n, 260 - bs.length = n + 1 := ⟨259 - bs.length, by omega⟩
    rw [hn]
    rfl
  have hload : (x.receive (List.replicate (260 - bs.length) 0 ++ bs)).load L =
      ⟨{ x.dev with view := some (L.load v bs) }, List.replicate (260 - bs.length) 0 ++ bs, (L.store v).length⟩ := by
    unfold Board.load
    rw [hrec]
    show Board.mk { x.dev with view := x.dev.view.map _ } _ x.size = _
    rw [hv]
    simp only [Option.map_some]
    rw [show (x.receive (List.replicate (260 - bs.length) 0 ++ bs)).size = x.size from rfl, hdrop, hz]
  unfold Board.step
  dsimp only
  rw [if_pos hrun, hload, htake, hlen]
  have hdisp : ∀ d : Dev, d.dispatch cfg env (List.replicate (260 - bs.length) 0 ++ bs) 260 = d.fail .claNotSupported := by
    intro d
    unfold Dev.dispatch
    rw [if_neg (by omega), h0, if_pos (by decide)]
  unfold Board.handle
  dsimp only
  rw [hdisp]
  simp only [Dev.fail, Res.deliver]
  unfold Board.reply
  rw [if_pos (by rw [statusWord_length]; decide)]
  simp only [overwrite, List.take_zero, List.nil_append, statusWord_length, Nat.zero_add]
  rfl

set_option maxRecDepth 100000 in
/-- What that comes to: the host sends 260 bytes during a review, the user goes through the review of a delegation and
approves it, and the digest signed is one the host sent. -/
theorem C80_overwritten : ∃ (L : Layout) (is : List Input) (m : Bytes),
    ((Demo.board.run L Demo.walletApp (is.map (Demo.fine, ·))).2[2]? = some ⟨some [0x6e, 0x00], none, none⟩) ∧
    ((Demo.board.run L Demo.walletApp (is.map (Demo.fine, ·))).2.filterMap fun o =>
      o.sig.map fun x => (x.msg, x.digest)) = [(m, List.replicate 32 7)] ∧
    Demo.crypto.blake2b 32 m ≠ some (List.replicate 32 7) := by
  refine ⟨Demo.layout, Demo.during [Demo.long] Demo.delegation 11, Demo.delegation, ?_⟩
  decide +kernel

/-! ### Concrete cases -/

set_option maxRecDepth 100000 in
/-- The hypotheses of `C80_same_as_app` and of the orderly forms of C42 and C43: a review without a command during it,
and a signature in the end. -/
example : (∀ m ∈ Demo.board.trace Demo.layout Demo.walletApp
      ((Demo.during [] Demo.delegation 11).map (Demo.fine, ·)), m.board.dev.running = true →
      m.board.dev.view ≠ none → (match m.input with | .command _ => false | _ => true) = true) ∧
    ((Demo.board.run Demo.layout Demo.walletApp ((Demo.during [] Demo.delegation 11).map (Demo.fine, ·))).2.filterMap
      fun o => o.sig.map fun x => (x.msg, some x.digest)) =
      [(Demo.delegation, Demo.crypto.blake2b 32 Demo.delegation)] := by
  decide +kernel

set_option maxRecDepth 100000 in
/-- The hypotheses of `C80_same_as_app_partial`: during the review the host asks for the version. -/
example : (∀ m ∈ Demo.board.trace Demo.layout Demo.walletApp
      ((Demo.during [Demo.cmd 0 0 0 []] Demo.delegation 11).map (Demo.fine, ·)), m.board.dev.running = true →
      m.board.dev.view ≠ none → (match m.input with | .command d => d.length | _ => 0) + m.board.size ≤ 260) ∧
    ((Demo.board.run Demo.layout Demo.walletApp
      ((Demo.during [Demo.cmd 0 0 0 []] Demo.delegation 11).map (Demo.fine, ·))).2.filterMap
      fun o => o.sig.map fun x => (x.msg, some x.digest)) =
      [(Demo.delegation, Demo.crypto.blake2b 32 Demo.delegation)] ∧
    (Demo.board.run Demo.layout Demo.walletApp
      ((Demo.during [Demo.cmd 0 0 0 []] Demo.delegation 11).map (Demo.fine, ·))).2[2]? =
      some ⟨some [0, 2, 1, 0, 0x90, 0x00], none, none⟩ := by
  decide +kernel

set_option maxRecDepth 100000 in
/-- The hypotheses of `C80_host_writes_the_review`: a review of 33 bytes is pending. -/
example : ((Demo.board.run Demo.layout Demo.walletApp
      (([Demo.cmd 0x04 0 0 Demo.keyPath, Demo.cmd 0x04 0x81 0 Demo.delegation]).map (Demo.fine, ·))).1.dev.running) = true ∧
    ((Demo.board.run Demo.layout Demo.walletApp
      (([Demo.cmd 0x04 0 0 Demo.keyPath, Demo.cmd 0x04 0x81 0 Demo.delegation]).map (Demo.fine, ·))).1.dev.view.map
      fun v => (Demo.layout.store v).length) = some 33 := by
  decide +kernel

end Tezos
