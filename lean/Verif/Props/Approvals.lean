import Verif.Props.Reviews
/-
C42–C45 and C53: what is signed when a review is approved, with which key, what the host receives, and what is left
afterwards.
-/
set_option linter.unusedSimpArgs false
namespace Tezos
open Spec

/-! ### C42: what is approved is what was reviewed -/

/-- What the user is shown of a message: all of it, or (by the baking commands) its first operation. -/
inductive MessageReview (bld : Build) (cr : Crypto) (digest msg : Bytes) : Viewer → Prop where
  | whole : MessageReview bld cr digest msg (reviewOf cr digest msg)
  | first (hb : bld = .baking) (rem rest : Bytes) (op : Op) (hm : msg = 0x03 :: rem) (hl : 32 ≤ rem.length)
      (hn : parseNext (rem.drop 32) = .ok (some (rest, op))) (hop : (∃ d, op = .delegation d) ∨ ∃ r, op = .reveal r) :
      MessageReview bld cr digest msg (firstOpReview cr (rem.take 32) op)

theorem Opens.messageReview {cfg : Config} {env : Env} {s : Dev} {ev : Event} {buf : Bytes} {rx : Nat} {c : Cmd}
    {v : View} {p : Option (Path × Curve)} {u : Upl} {d m : Bytes} (hrec : Received cfg s ev buf rx c)
    (ho : Opens env s (buf.getD 2 0) (buf.getD 3 0) (apduPayload buf) c v p u)
    (hv : v.signs = some (d, m)) {b : SwapBuf} (hb : SameMemory u.buf b) (cr : Crypto) :
    MessageReview cfg.build cr d m (v.viewer cr b) := by
  cases v with
  | sign hh d' r m' =>
    cases hv
    rw [ho.viewer_sign hb cr]
    exact .whole
  | bakingSign hh d' branch op m' =>
    cases hv
    have hop : (∃ h, c = .bakerSign h) ∧ ((∃ d, op = .delegation d) ∨ ∃ r, op = .reveal r) := by
      cases ho with
      | baking hu hc hp hk hd ho hn hop => exact ⟨⟨_, rfl⟩, hop⟩
    obtain ⟨rem, rest, hm, hl, hn, hw⟩ := ho.viewer_baking
    rw [hw cr b hb]
    obtain ⟨⟨h', rfl⟩, hop⟩ := hop
    obtain ⟨ins, _, hcmd⟩ := hrec.cmd
    exact .first (command_bakerSign hcmd) rem rest op hm hl hn hop
  | _ => cases hv

/-- A signature that is not of a consensus message was approved. -/
theorem signed_approved {cfg : Config} {s : Dev} {es : List (Env × Event)} {past rest : List Moment} {m : Moment}
    (h : s.trace cfg es = past ++ m :: rest) {x : SigRec} (hx : m.out.sig = some x)
    (hm : isConsensusMagic x.msg = false) :
    ∃ v, Approves m.st m.ev v ∧ v.signs = some (x.digest, x.msg) := by
  obtain ⟨ea, eb, rfl, hla, rfl, hst, ho, _⟩ := Dev.trace_split h
  rw [ho] at hx
  cases Dev.step_signed hx with
  | review hh p ha _ _ _ _ => exact ⟨_, ha, rfl⟩
  | delegation hh br op ha _ _ _ _ => exact ⟨_, ha, rfl⟩
  | consensus hh buf rx hrec u q2 first ref hu hcv hp hk hd hs hr b it hb hi =>
    rw [consensusItem_magic hi] at hm
    cases hm

/-- C42, as far as it holds: a signature that is not of a consensus message is given out when the user approves the
review that the request for this message opened; the signed digest is that of the message; and if the host sent no
packet of a signing command while the review was pending, what was on the review all along was this message (with the
baking commands: its first operation). What is missing: signing packets that arrive while the review is pending
(`C42_other_message_shown`, `C42_other_delegation_shown`). -/
theorem C42_approved_is_reviewed_partial (cfg : Config) (new : NewDevice) (es : List (Env × Event))
    (past rest : List Moment) (m : Moment) (h : (Dev.factory new).trace cfg es = past ++ m :: rest) (x : SigRec)
    (hx : m.out.sig = some x) (hm : isConsensusMagic x.msg = false) :
    ∃ v a m0 b, past = a ++ m0 :: b ∧ Approves m.st m.ev v ∧ m0.Opens cfg v ∧
      (∀ y ∈ b, y.st.view = some v ∧ ∀ w, ¬ y.Opens cfg w) ∧ m0.env.cr.blake2b 32 x.msg = some x.digest ∧
      ((∀ y ∈ b, y.ev.packet cfg.build = none) →
        ∀ y ∈ b ++ [m], ∃ w, y.st.viewer y.env = some w ∧ MessageReview cfg.build y.env.cr x.digest x.msg w) := by
  obtain ⟨v, ha, hv⟩ := signed_approved h hx hm
  obtain ⟨a, m0, b, rfl, ho, hb⟩ := Dev.trace_view h rfl ha.view
  obtain ⟨buf, rx, c, p, u, hrec, hop, hp, hu⟩ := ho.memory
  refine ⟨v, a, m0, b, rfl, ha, ho, hb, ?_, fun hbb y hy => ?_⟩
  · have hh := hop.hashed
    cases v with
    | sign => cases hv; exact hh
    | bakingSign => cases hv; exact hh
    | _ => cases hv
  · have ht : (Dev.factory new).trace cfg es = a ++ m0 :: (b ++ m :: rest) := by rw [h]; simp
    have hk := Dev.trace_kept ht (fun x hx => ⟨hbb x hx, (hb x hx).2⟩) (fun x hx => (hb x hx).1) ha.view y hy
    have hyv : y.st.view = some v := by
      rcases List.mem_append.mp hy with hy | hy
      · exact (hb y hy).1
      · rw [List.mem_singleton.mp hy]; exact ha.view
    refine ⟨v.viewer y.env.cr y.st.upl.buf, by unfold Dev.viewer; rw [hyv]; rfl, ?_⟩
    exact Opens.messageReview hrec hop hv (by rw [hk.upl]; exact hu) _

/-- C42 with C37: in addition, if expert mode was off or the display is the larger one, and the hash functions did not
change, the user has seen every page of every item of a review of the signed message. -/
theorem C42_user_saw_the_message_partial (cfg : Config) (new : NewDevice) (es : List (Env × Event))
    (past rest : List Moment) (m : Moment) (h : (Dev.factory new).trace cfg es = past ++ m :: rest) (x : SigRec)
    (hx : m.out.sig = some x) (hm : isConsensusMagic x.msg = false) (cr : Crypto) (hs : cr.Sized)
    (hcr : ∀ e ∈ es, e.1.cr = cr) :
    ∃ a m0 b, past = a ++ m0 :: b ∧ (∃ v, m0.Opens cfg v) ∧ (∀ y ∈ b, ∀ w, ¬ y.Opens cfg w) ∧
      cr.blake2b 32 x.msg = some x.digest ∧
      ((∀ y ∈ b, y.ev.packet cfg.build = none ∧ y.st.zui.Plain) →
        ∃ w, MessageReview cfg.build cr x.digest x.msg w ∧ AllDisplayed w (b ++ [m])) := by
  have hcr' : ∀ y ∈ past ++ m :: rest, y.env.cr = cr := by
    rw [← h]
    clear h hx
    generalize Dev.factory new = s
    induction es generalizing s with
    | nil => intro y hy; cases hy
    | cons e es ih =>
      intro y hy
      rcases List.mem_cons.mp hy with rfl | hy
      · exact hcr e (by simp)
      · exact ih (fun e he => hcr e (by simp [he])) _ y hy
  obtain ⟨v, ha, hv⟩ := signed_approved h hx hm
  obtain ⟨a, m0, b, rfl, ho, hb, hall⟩ := C37_everything_displayed cfg new es past rest m h v ha
  obtain ⟨buf, rx, c, p, u, hrec, hop, hp, hu⟩ := ho.memory
  have h0 : m0.env.cr = cr := hcr' m0 (by simp)
  refine ⟨a, m0, b, rfl, ⟨v, ho⟩, fun y hy => (hb y hy).2, ?_, fun hbb => ?_⟩
  · have hh := hop.hashed
    rw [h0] at hh
    cases v with
    | sign => cases hv; exact hh
    | bakingSign => cases hv; exact hh
    | _ => cases hv
  · obtain ⟨w, hw, hd⟩ := hall hbb cr hs (fun y hy => hcr' y (by
      simp only [List.mem_append, List.mem_cons, List.mem_singleton, List.not_mem_nil, or_false] at hy ⊢
      rcases hy with h | h | h <;> simp [h]))
    refine ⟨w, ?_, hd⟩
    have ht : (Dev.factory new).trace cfg es = a ++ m0 :: (b ++ m :: rest) := by rw [h]; simp
    have hk := Dev.trace_kept ht (fun y hy => ⟨(hbb y hy).1, (hb y hy).2⟩) (fun x hx => (hb x hx).1) ha.view m (by simp)
    have hwm := hw m (by simp)
    unfold Dev.viewer at hwm
    rw [ha.view, hcr' m (by simp)] at hwm
    cases hwm
    exact Opens.messageReview hrec hop hv (by rw [hk.upl]; exact hu) _

/-- What the display shows at each button press of a history. -/
def shownTo (cfg : Config) (new : NewDevice) (es : List (Env × Event)) : List Screen :=
  ((Dev.factory new).trace cfg es).filterMap fun m => if m.ev.isButton then some m.st.zui.screen else none

/-- The messages signed in a history. -/
def signedIn (cfg : Config) (new : NewDevice) (es : List (Env × Event)) : List Bytes :=
  ((Dev.factory new).trace cfg es).filterMap fun m => m.out.sig.map SigRec.msg

namespace Demo

/-- The host asks for a signature of `a` and, while the review is pending, sends the opening packet of a new upload
which holds `b` where `a` was; then the user goes through the review and approves. -/
def swapped (a b : Bytes) : List (Env × Event) :=
  ok <| [apdu 0x04 0 0 keyPath, apdu 0x04 0x81 0 a, apdu 0x04 0 0 (keyPath ++ b)] ++ List.replicate 11 .right ++ [.both]

end Demo

set_option maxRecDepth 100000 in
/-- C42 does not hold of all histories: here the user sees, at every button press, exactly what they see in the history
in which the message `b` is signed, makes the same presses, and the signature given out is of the message `a`. -/
theorem C42_other_message_shown : ∃ (a b : Bytes) (es es' : List (Env × Event)), a ≠ b ∧
    (es.map fun e => e.2).filter Event.isButton = (es'.map fun e => e.2).filter Event.isButton ∧
    shownTo Demo.walletApp ⟨.small, []⟩ es = shownTo Demo.walletApp ⟨.small, []⟩ es' ∧
    signedIn Demo.walletApp ⟨.small, []⟩ es = [a] ∧ signedIn Demo.walletApp ⟨.small, []⟩ es' = [b] := by
  refine ⟨Demo.delegation 0, Demo.delegation 1, Demo.swapped (Demo.delegation 0) (Demo.delegation 1),
    Demo.signReview 0x04 (Demo.delegation 1) 11, by decide, by decide +kernel, ?_⟩
  decide +kernel

set_option maxRecDepth 100000 in
/-- The same in the baking build, once a key is authorized: the user reviews the delegation `b` and the authorized key
signs the delegation `a`. -/
theorem C42_other_delegation_shown : ∃ (a b : Bytes) (es es' : List (Env × Event)), a ≠ b ∧
    (es.map fun e => e.2).filter Event.isButton = (es'.map fun e => e.2).filter Event.isButton ∧
    shownTo Demo.bakingApp ⟨.small, []⟩ es = shownTo Demo.bakingApp ⟨.small, []⟩ es' ∧
    signedIn Demo.bakingApp ⟨.small, []⟩ es = [a] ∧ signedIn Demo.bakingApp ⟨.small, []⟩ es' = [b] := by
  refine ⟨Demo.delegation 0, Demo.delegation 1,
    Demo.setup 0 ++ Demo.swapped (Demo.delegation 0) (Demo.delegation 1),
    Demo.setup 0 ++ Demo.signReview 0x04 (Demo.delegation 1) 11, by decide, by decide +kernel, ?_⟩
  decide +kernel

/-! ### C43: the requested key is used -/

/-- The request behind a signing review. -/
theorem Opens.request {env : Env} {s : Dev} {p1 p2 : UInt8} {payload : Option Bytes} {c : Cmd} {v : View}
    {p : Option (Path × Curve)} {u : Upl} {d m : Bytes} (ho : Opens env s p1 p2 payload c v p u)
    (hv : v.signs = some (d, m)) : ∃ acc q2 first ref k, c.accessor = some acc ∧
      Completes env s acc p1 p2 payload u q2 first m ref ∧ Curve.ofByte q2 = some k.curve ∧
      Path.read bip32MaxLength first = .ok k.path ∧
      ((acc = .sign ∧ (∃ h r, c = .sign h ∧ v = .sign h d r m) ∧ p = some (k.path, k.curve)) ∨
        (acc = .baking ∧ (∃ h b op, c = .bakerSign h ∧ v = .bakingSign h d b op m) ∧ s.storedKey = some k)) := by
  cases ho with
  | operation hu hc hp hd ho => cases hv; exact ⟨_, _, _, _, _, rfl, hu, hc, hp, .inl ⟨rfl, ⟨_, _, rfl, rfl⟩, rfl⟩⟩
  | michelson hu hc hp hd => cases hv; exact ⟨_, _, _, _, _, rfl, hu, hc, hp, .inl ⟨rfl, ⟨_, _, rfl, rfl⟩, rfl⟩⟩
  | baking hu hc hp hk hd ho hn hop =>
    cases hv
    exact ⟨_, _, _, _, _, rfl, hu, hc, hp, .inr ⟨rfl, ⟨_, _, _, rfl, rfl⟩, hk⟩⟩
  | _ => cases hv

/-- The key record does not change while a review stays pending. -/
theorem Dev.step_key_kept {cfg : Config} {env : Env} {ev : Event} {s : Dev} {v : View}
    (h : (s.step cfg env ev).1.view = some v) : (s.step cfg env ev).1.key = s.key := by
  cases s.step_cases cfg env ev with
  | still hfl _ => exact hfl.key
  | relaunch _ he _ =>
    subst he
    cases h
  | accept w ha _ _ _ =>
    rw [(ha.step_ram (cfg := cfg) env).2.2] at h
    cases h
  | command buf rx c hrec he =>
    have hfl := (s.exec cfg env c (buf.getD 2 0) (buf.getD 3 0) (apduPayload buf)).deliver_flash
    rw [he] at hfl
    rw [hfl.key, Dev.exec_key]

theorem Dev.run_key_kept {cfg : Config} {s : Dev} {es : List (Env × Event)} {v : View}
    (hv : ∀ x ∈ s.trace cfg es, x.st.view = some v) (h : (s.run cfg es).1.view = some v) :
    (s.run cfg es).1.key = s.key := by
  induction es generalizing s with
  | nil => rfl
  | cons e es ih =>
    have hv1 : (s.step cfg e.1 e.2).1.view = some v := by
      cases es with
      | nil => exact h
      | cons e' es' => exact hv _ (List.mem_cons_of_mem _ (List.mem_cons_self ..))
    exact (ih (fun x hx => hv x (List.mem_cons_of_mem _ hx)) h).trans (Dev.step_key_kept hv1)

theorem Dev.trace_key_kept {cfg : Config} {s : Dev} {es : List (Env × Event)} {a b c : List Moment} {m0 m : Moment}
    {v : View} (h : s.trace cfg es = a ++ m0 :: (b ++ m :: c)) (hv : ∀ x ∈ b, x.st.view = some v)
    (hm : m.st.view = some v) : m.st.key = (m0.next cfg).key := by
  obtain ⟨ea, eb, rfl, _, _, _, _, hrest⟩ := Dev.trace_split h
  obtain ⟨ec, ed, rfl, _, hb', hm', _, _⟩ := Dev.trace_split hrest.symm
  rw [hb'] at hv
  rw [hm'] at hm ⊢
  exact Dev.run_key_kept hv hm

/-- The stored key is a function of its record. -/
theorem Dev.storedKey_congr {s s' : Dev} (h : s'.key = s.key) : s'.storedKey = s.storedKey := by
  unfold Dev.storedKey
  rw [h]

theorem Good.trace {cfg : Config} {s : Dev} {es : List (Env × Event)} (hg : ∀ e ∈ es, Good e.1 e.2) :
    ∀ x ∈ s.trace cfg es, Good x.env x.ev := by
  induction es generalizing s with
  | nil => intro x hx; cases hx
  | cons e es ih =>
    intro x hx
    rcases List.mem_cons.mp hx with rfl | hx
    · exact hg e (by simp)
    · exact ih (fun e he => hg e (by simp [he])) x hx

/-- C43, as far as it holds: a signature that is not of a consensus message is of the message completed by the packet
that opened the approved review, in the upload session of the host; and it is made with the curve and path given in the
opening packet of that session if the host sent no signing packet while the review was pending, and always for the
baking commands. What is missing: signing packets that arrive while a review of the other commands is pending
(`C43_other_key_used`). -/
theorem C43_requested_key_partial (cfg : Config) (new : NewDevice) (hu : new.upload.length = uploadCapacity)
    (es : List (Env × Event)) (hg : ∀ e ∈ es, Good e.1 e.2) (past rest : List Moment) (m : Moment)
    (h : (Dev.factory new).trace cfg es = past ++ m :: rest) (x : SigRec) (hx : m.out.sig = some x)
    (hm : isConsensusMagic x.msg = false) :
    ∃ v a m0 b k q2 first, past = a ++ m0 :: b ∧ Approves m.st m.ev v ∧ m0.Opens cfg v ∧
      (∀ y ∈ b, y.st.view = some v ∧ ∀ w, ¬ y.Opens cfg w) ∧ m0.ev.packet cfg.build = some k ∧
      (feed (sessionIn cfg a) k).2 = some (q2, first, x.msg) ∧
      ((∀ y ∈ b, y.ev.packet cfg.build = none) ∨ k.family = .baking →
        Curve.ofByte q2 = some x.curve ∧ first = UInt8.ofNat x.path.length :: x.path.flatMap be32) := by
  obtain ⟨v, ha, hv⟩ := signed_approved h hx hm
  obtain ⟨a, m0, b, rfl, ho, hb⟩ := Dev.trace_view h rfl ha.view
  obtain ⟨buf, rx, c, p, u, hrec, hop, hp, hmem⟩ := ho.memory
  obtain ⟨acc, q2, first, ref, k, hacc, hcomp, hcv, hpath, hkey⟩ := hop.request hv
  have ht : (Dev.factory new).trace cfg es = a ++ m0 :: (b ++ m :: rest) := by rw [h]; simp
  have hgood : Good m0.env m0.ev := Good.trace hg m0 (by rw [ht]; simp)
  have hsess : UplInv m0.st.upl (sessionIn cfg a) := by
    obtain ⟨ea, eb, rfl, _, ha', hm0, _, _⟩ := Dev.trace_split ht
    rw [ha', hm0]
    exact factory_session hu fun e he => hg e (by simp [he])
  have hfull : buf.length = 260 := by
    have := hgood.full
    rw [hrec.ev] at this
    exact this
  rw [apduPayload_full hfull] at hcomp
  have hlen : (slice buf 5 (buf.getD 4 0).toNat).length ≤ 255 := by
    have := slice_length_le buf 5 (buf.getD 4 0).toNat
    have := (buf.getD 4 0).toNat_lt
    omega
  refine ⟨v, a, m0, b, _, q2, first, rfl, ha, ho, hb, by rw [hrec.packet, hacc]; rfl,
    (hcomp.feed hsess hlen hgood.copy hgood.append).1, fun hcalm => ?_⟩
  obtain ⟨ea, eb, -, -, -, hst, hout, -⟩ := Dev.trace_split h
  have hsig : (m.st.step cfg m.env m.ev).2.sig = some x := by rw [← hout]; exact hx
  suffices hk : k = ⟨x.curve, x.path⟩ by
    subst hk
    exact ⟨hcv, (Path.read_ok.mp hpath).2.2.2⟩
  rcases hkey with ⟨hf, ⟨hh, r, _, rfl⟩, hpk⟩ | ⟨hf, ⟨hh, br, op, _, rfl⟩, hpk⟩
  · have hcalm : ∀ y ∈ b, y.ev.packet cfg.build = none := by
      rcases hcalm with hc | hc
      · exact hc
      · dsimp only at hc
        rw [hf] at hc
        cases hc
    have hk := Dev.trace_kept ht (fun y hy => ⟨hcalm y hy, (hb y hy).2⟩) (fun y hy => (hb y hy).1) ha.view m (by simp)
    cases Dev.step_signed hsig with
    | review hh' p' ha' hpath' _ _ _ =>
      rw [hk.path, hp, hpk] at hpath'
      cases k
      cases hpath'
      rfl
    | delegation hh' br op ha' _ _ _ _ => cases ha.unique ha'
    | consensus hh' buf rx hrec u q2 first ref hu hcv hp hk hd hs hr b it hb hi =>
      rw [consensusItem_magic hi] at hm
      cases hm
  · have hk := Dev.trace_key_kept ht (fun y hy => (hb y hy).1) ha.view
    cases Dev.step_signed hsig with
    | review hh' p' ha' hpath' _ _ _ => cases ha.unique ha'
    | delegation hh' br op ha' hkey' _ _ _ =>
      rw [Dev.storedKey_congr (hk.trans ho.flash.key), hpk] at hkey'
      exact Option.some.inj hkey'
    | consensus hh' buf rx hrec u q2 first ref hu hcv hp hk hd hs hr b it hb hi =>
      rw [consensusItem_magic hi] at hm
      cases hm

/-- The keys signatures were made with in a history. -/
def keysIn (cfg : Config) (new : NewDevice) (es : List (Env × Event)) : List (Path × Bytes) :=
  ((Dev.factory new).trace cfg es).filterMap fun m => m.out.sig.map fun x => (x.path, x.msg)

namespace Demo

/-- A signature of `delegation` is asked for with `keyPath`; when the user has seen everything, the host asks for a
signature of an Emmy block with `keyPath2`, which is refused; then the user approves. -/
def rekeyed : List (Env × Event) :=
  ok <| [apdu 0x04 0 0 keyPath, apdu 0x04 0x81 0 delegation] ++ List.replicate 11 .right ++
    [apdu 0x04 0 0 keyPath2, apdu 0x04 0x81 0 (emmyBlock 7), .both]

end Demo

set_option maxRecDepth 100000 in
/-- C43 does not hold of all histories: here the request is for the key 44'/1729', the only other request is refused,
and the signature is made with the key of the refused request. -/
theorem C43_other_key_used :
    keysIn Demo.walletApp ⟨.small, []⟩ Demo.rekeyed = [([0x8000002c, 0x800006c1, 0x80000000], Demo.delegation)] ∧
    ((Dev.factory ⟨.small, []⟩).run Demo.walletApp Demo.rekeyed).2[14]? = some ⟨some [0x69, 0x86], none, none⟩ := by
  decide +kernel

/-! ### C44: one approval, one signature -/

/-- The user rejects the pending review `v` at this event. -/
structure Rejects (s : Dev) (ev : Event) (v : View) : Prop where
  running : s.running = true
  ev : ev = .both
  onScreen : ∃ k l1 l2, s.zui.screen = .review k l1 l2
  action : s.zui.chosen = .reject
  view : s.view = some v

/-- C44: a rejected review answers 0x6986 without data and gives out no signature; no review is pending afterwards,
the records are as before, and the requested key is forgotten. -/
theorem C44_rejection (cfg : Config) (env : Env) (s : Dev) (ev : Event) (v : View) (h : Rejects s ev v) :
    (s.step cfg env ev).2.reply = some [0x69, 0x86] ∧ (s.step cfg env ev).2.sig = none ∧
    (s.step cfg env ev).1.view = none ∧ SameFlash s (s.step cfg env ev).1 ∧
    ∀ hh d r m, v = .sign hh d r m → (s.step cfg env ev).1.path = none := by
  obtain ⟨hrun, rfl, ⟨k, l1, l2, hscr⟩, hact, hview⟩ := h
  have hstep : s.step cfg env .both = s.pressBoth env := by simp only [Dev.step, hrun, if_true, hscr]
  have hrej : s.reject = ({ v.reject s.idle with view := none }, ⟨some (statusWord .commandNotAllowed), none, none⟩) := by
    unfold Dev.reject
    dsimp only
    split
    · rename_i hw
      rw [hview] at hw
      cases hw
    · rename_i w hw
      rw [hview] at hw
      cases hw
      rfl
  have hfl : SameFlash s { v.reject s.idle with view := none } := by
    have h1 := s.idle_flash
    have h2 := v.reject_flash s.idle
    exact ⟨h2.1.trans h1.1, h2.2.trans h1.2, h2.3.trans h1.3, h2.4.trans h1.4⟩
  have hpath : ∀ hh d r m, v = .sign hh d r m → ({ v.reject s.idle with view := none } : Dev).path = none := by
    rintro hh d r m rfl
    rfl
  generalize ht : ({ v.reject s.idle with view := none } : Dev) = t at hrej hfl hpath
  have htv : t.view = none := by rw [← ht]
  rw [hstep]
  unfold Dev.pressBoth
  simp only [hact, hrej]
  have hw : statusWord .commandNotAllowed = [0x69, 0x86] := by decide
  split
  · obtain ⟨a, b⟩ := Dev.redraw_path_none (u := Zui.expertJump (Dev.viewer env t) t.zui) htv
    refine ⟨by rw [hw]; rfl, rfl, ?_, ?_, fun hh d r m hv => a.trans (hpath hh d r m hv)⟩
    · rcases t.redraw_view (Zui.expertJump (Dev.viewer env t) t.zui) with h | h
      · exact h.trans htv
      · exact h
    · exact hfl.trans (t.redraw_flash _)
  · exact ⟨by rw [hw], rfl, htv, hfl, hpath⟩

/-- C44: whoever presses a button, a signature only comes with the approval of the pending review. -/
theorem C44_signature_on_approval (cfg : Config) (env : Env) (s : Dev) (ev : Event) (x : SigRec)
    (hb : ev.isButton = true) (hx : (s.step cfg env ev).2.sig = some x) :
    ∃ v, Approves s ev v ∧ v.signs = some (x.digest, x.msg) := by
  cases Dev.step_signed hx with
  | review hh p ha _ _ _ _ => exact ⟨_, ha, rfl⟩
  | delegation hh br op ha _ _ _ _ => exact ⟨_, ha, rfl⟩
  | consensus hh buf rx hrec u q2 first ref hu hcv hp hk hd hs hr b it hb' hi =>
    rw [hrec.ev] at hb
    cases hb

/-- C44: after a signature that the user approved, no review is pending and the requested key is forgotten. -/
theorem C44_after_signature (cfg : Config) (env : Env) (s : Dev) (ev : Event) (v : View) (x : SigRec)
    (ha : Approves s ev v) (hx : (s.step cfg env ev).2.sig = some x) :
    (s.step cfg env ev).1.view = none ∧
    ∀ hh d r m, v = .sign hh d r m → (s.step cfg env ev).1.path = none := by
  obtain ⟨h1, _, h3⟩ := ha.step_ram (cfg := cfg) env
  refine ⟨h3, ?_⟩
  rintro hh d r m rfl
  rw [h1]
  cases View.accept_sign env hh d r m s.idle with
  | bad hst hb =>
    rw [(ha.step (cfg := cfg) env).2.1, Res.deliver_none hb.1] at hx
    cases hx
  | done _ _ _ _ _ hr => rw [hr]

theorem Dev.reject_reply {s : Dev} {r : Bytes} (h : s.reject.2.reply = some r) : ∃ v, s.view = some v := by
  unfold Dev.reject at h
  dsimp only at h
  split at h
  · cases h
  · rename_i v hv
    exact ⟨v, hv⟩

theorem Dev.redraw_reply {u : Upd} {s : Dev} {r : Bytes} (h : (s.redraw u).2.reply = some r) :
    (∃ v, s.view = some v) ∧ (s.redraw u).1.view = none := by
  unfold Dev.redraw at h ⊢
  cases u with
  | rejected z =>
    have h' : ({ s with zui := z } : Dev).reject.2.reply = some r := h
    obtain ⟨v, hv⟩ := Dev.reject_reply h'
    exact ⟨⟨v, hv⟩, Dev.reject_view _⟩
  | _ => cases h

theorem Dev.onError_reply {c : Bool} {f : XError → XError} {s : Dev} {r : Bytes} (h : (s.onError c f).2.reply = some r) :
    (∃ v, s.view = some v) ∧ (s.onError c f).1.view = none := by
  unfold Dev.onError at h ⊢
  split at h
  · rename_i hc
    rw [if_pos hc]
    refine ⟨?_, s.acceptError_view⟩
    unfold Dev.acceptError at h
    dsimp only at h
    split at h
    · cases h
    · rename_i v hv
      exact ⟨v, hv⟩
  · cases h

/-- A button press that sends a reply ends the pending review. -/
theorem Dev.button_reply {cfg : Config} {env : Env} {ev : Event} {s : Dev} {r : Bytes} (hb : ev.isButton = true)
    (h : (s.step cfg env ev).2.reply = some r) : (∃ v, s.view = some v) ∧ (s.step cfg env ev).1.view = none := by
  cases ev with
  | apdu buf rx => cases hb
  | relaunch => cases h
  | left =>
    simp only [Dev.step] at h ⊢
    split at h
    · rename_i hrun
      split at h
      · rename_i hs
        simp only [hrun, if_true, hs]
        exact Dev.redraw_reply h
      · rename_i hs
        simp only [hrun, if_true, hs]
        exact Dev.onError_reply h
      · cases h
    · cases h
  | right =>
    simp only [Dev.step] at h ⊢
    split at h
    · rename_i hrun
      split at h
      · rename_i hs
        simp only [hrun, if_true, hs]
        exact Dev.redraw_reply h
      · rename_i hs
        simp only [hrun, if_true, hs]
        exact Dev.onError_reply h
      · cases h
    · cases h
  | both =>
    simp only [Dev.step] at h ⊢
    split at h
    · rename_i hrun
      split at h
      · rename_i hs
        simp only [hrun, if_true, hs]
        unfold Dev.pressBoth at h ⊢
        dsimp only at h ⊢
        have done : ∀ (q : Dev × Output), q.1.view = none → (q.2.reply = some r → ∃ v, s.view = some v) →
            (if q.1.running = true ∧ q.1.zui.jumps = true then
              ((q.1.redraw (q.1.zui.expertJump (q.1.viewer env))).1,
                (⟨q.2.reply <|> (q.1.redraw (q.1.zui.expertJump (q.1.viewer env))).2.reply, q.2.sig,
                  q.2.fault <|> (q.1.redraw (q.1.zui.expertJump (q.1.viewer env))).2.fault⟩ : Output))
              else q).2.reply = some r → (∃ v, s.view = some v) ∧
            (if q.1.running = true ∧ q.1.zui.jumps = true then
              ((q.1.redraw (q.1.zui.expertJump (q.1.viewer env))).1,
                (⟨q.2.reply <|> (q.1.redraw (q.1.zui.expertJump (q.1.viewer env))).2.reply, q.2.sig,
                  q.2.fault <|> (q.1.redraw (q.1.zui.expertJump (q.1.viewer env))).2.fault⟩ : Output))
              else q).1.view = none := by
          intro q hq hr
          split
          · intro h
            dsimp only at h ⊢
            rw [Dev.redraw_reply_none hq] at h
            refine ⟨hr (by cases hx : q.2.reply <;> simp_all), ?_⟩
            rcases q.1.redraw_view (q.1.zui.expertJump (q.1.viewer env)) with h' | h'
            · exact h'.trans hq
            · exact h'
          · intro h
            exact ⟨hr h, hq⟩
        cases ha : s.zui.chosen with
        | approve =>
          simp only [ha] at h
          refine done _ (s.approve_view env) ?_ h
          intro h
          unfold Dev.approve at h
          dsimp only at h
          split at h
          · cases h
          · rename_i v hv
            exact ⟨v, hv⟩
        | reject =>
          simp only [ha] at h
          exact done _ s.reject_view Dev.reject_reply h
        | nothing =>
          simp only [ha] at h ⊢
          split at h
          · rename_i hc
            rw [if_pos hc]
            exact Dev.redraw_reply (by simpa [Output.quiet] using h)
          · cases h
      · rename_i hs
        simp only [hrun, if_true, hs]
        exact Dev.onError_reply h
      · cases h
    · cases h
  | expert =>
    simp only [Dev.step] at h
    split at h <;> cases h

/-- C44: a review yields at most one reply: between two button presses that send a reply another review is opened, and
the second reply belongs to that one. -/
theorem C44_one_reply (cfg : Config) (s : Dev) (es : List (Env × Event)) (a b c : List Moment) (m1 m2 : Moment)
    (h : s.trace cfg es = a ++ m1 :: (b ++ m2 :: c)) (h1 : m1.ev.isButton = true ∧ m1.out.reply ≠ none)
    (h2 : m2.ev.isButton = true ∧ m2.out.reply ≠ none) :
    ∃ v b1 m0 b2, b = b1 ++ m0 :: b2 ∧ m0.Opens cfg v ∧ m0.out.reply = none ∧
      (∀ y ∈ b2, y.st.view = some v ∧ ∀ w, ¬ y.Opens cfg w) ∧ m2.st.view = some v := by
  obtain ⟨ea, eb, rfl, _, _, _, ho1, hrest⟩ := Dev.trace_split h
  obtain ⟨r1, hr1⟩ := Option.ne_none_iff_exists'.mp h1.2
  obtain ⟨r2, hr2⟩ := Option.ne_none_iff_exists'.mp h2.2
  obtain ⟨ec, ed, rfl, _, hb', hm', ho2, _⟩ := Dev.trace_split hrest.symm
  rw [ho1] at hr1
  rw [ho2] at hr2
  have hnone := (Dev.button_reply h1.1 hr1).2
  obtain ⟨⟨v, hv⟩, _⟩ := Dev.button_reply h2.1 hr2
  have hv' := hv
  rw [hm'] at hv'
  rcases Dev.run_view hv' with ⟨h', _⟩ | ⟨b1, m0, b2, ht, hop, hall⟩
  · change (m1.next cfg).view = none at hnone
    rw [hnone] at h'
    cases h'
  · rw [← hb'] at ht
    refine ⟨v, b1, m0, b2, ht, hop, ?_, hall, hv⟩
    rw [ht] at hb'
    obtain ⟨_, _, _, _, _, _, ho, _⟩ := Dev.trace_split hb'.symm
    rw [ho]
    exact hop.quiet.1

/-! Where the key of a signature comes from. -/

/-- The key to sign with is as before, or none. -/
def KeepsPath (s s' : Dev) : Prop := s'.path = s.path ∨ s'.path = none

theorem KeepsPath.trans {a b c : Dev} (h1 : KeepsPath a b) (h2 : KeepsPath b c) : KeepsPath a c := by
  rcases h2 with h2 | h2
  · rcases h1 with h1 | h1
    · exact .inl (h2.trans h1)
    · exact .inr (h2.trans h1)
  · exact .inr h2

theorem View.reject_path (v : View) (s : Dev) : KeepsPath s (v.reject s) := by
  cases v <;> first | exact .inl rfl | exact .inr rfl

theorem Dev.show_keepsPath (env : Env) (v : View) (s : Dev) : KeepsPath s (s.show env v).st := by
  unfold Dev.show
  simp only
  split
  · exact .inl rfl
  · exact .inl rfl
  · exact v.reject_path { s with view := some v }
  · exact .inl rfl
  · exact .inl rfl

theorem View.accept_path (env : Env) (v : View) (s : Dev) : KeepsPath s (v.accept env s).st := by
  cases v with
  | sign h d p m =>
    cases View.accept_sign env h d p m s with
    | bad hst _ => rw [hst]; exact .inl rfl
    | done _ _ _ _ _ hr => rw [hr]; exact .inr rfl
  | bakingSign h d b o m =>
    left
    simp only [View.accept]
    rcases s.bakingSign_cases env h d m with ⟨h, _⟩ | ⟨k, sig, _, _, h⟩ <;> rw [h]
  | addr a k w => rw [(View.accept_addr env a k w s).1]; exact .inl rfl
  | query k a w => exact .inl rfl
  | authorize k a =>
    left
    cases View.accept_authorize env k a s with
    | none hst _ => rw [hst]
    | key _ hst _ => rw [hst]
    | done _ hst _ _ => rw [hst]
  | deauthorize a =>
    left
    cases View.accept_deauthorize env a s with
    | key _ hst _ => rw [hst]
    | done _ hst _ _ => rw [hst]
  | setup k a m t ch =>
    left
    cases View.accept_setup env k a m t ch s with
    | none hst _ => rw [hst]
    | key _ hst _ => rw [hst]
    | main _ _ hst _ => rw [hst]
    | test _ _ _ hst _ => rw [hst]
    | chain _ _ _ hst _ => rw [hst]

theorem Dev.reject_path (s : Dev) : KeepsPath s s.reject.1 := by
  unfold Dev.reject
  simp only
  split
  · exact .inl rfl
  · rename_i v _
    exact v.reject_path s.idle

theorem Dev.acceptError_path (s : Dev) : KeepsPath s s.acceptError.1 := by
  unfold Dev.acceptError
  simp only
  split <;> exact .inl rfl

theorem Dev.onError_path (c : Bool) (f : XError → XError) (s : Dev) : KeepsPath s (s.onError c f).1 := by
  unfold Dev.onError
  split
  · exact s.acceptError_path
  · exact .inl rfl

theorem Dev.approve_path (env : Env) (s : Dev) : KeepsPath s (s.approve env).1 := by
  unfold Dev.approve
  simp only
  split
  · exact .inl rfl
  · rename_i v _
    exact (v.accept_path env s.idle).trans (.inl (v.accept env s.idle).deliver_kept.1.path)

theorem Dev.redraw_path (u : Upd) (s : Dev) : KeepsPath s (s.redraw u).1 := by
  unfold Dev.redraw
  cases u with
  | rejected z => exact Dev.reject_path { s with zui := z }
  | _ => exact .inl rfl

theorem Dev.pressBoth_path (env : Env) (s : Dev) : KeepsPath s (s.pressBoth env).1 := by
  unfold Dev.pressBoth
  simp only
  split <;> split
  · exact (s.approve_path env).trans (Dev.redraw_path _ _)
  · exact s.approve_path env
  · exact s.reject_path.trans (Dev.redraw_path _ _)
  · exact s.reject_path
  · exact Dev.redraw_path _ _
  · exact .inl rfl

theorem Opens.path {env : Env} {s : Dev} {p1 p2 : UInt8} {payload : Option Bytes} {c : Cmd} {v : View}
    {p : Option (Path × Curve)} {u : Upl} (ho : Opens env s p1 p2 payload c v p u) :
    p = s.path ∨ ∃ h k, c = .sign h ∧ Asks env s p1 p2 payload k ∧ p = some (k.path, k.curve) := by
  cases ho with
  | operation hu hc hp hd ho => exact .inr ⟨_, _, rfl, ⟨_, _, _, _, _, hu, hc, hp⟩, rfl⟩
  | michelson hu hc hp hd => exact .inr ⟨_, _, rfl, ⟨_, _, _, _, _, hu, hc, hp⟩, rfl⟩
  | _ => exact .inl rfl

/-- The event completes a request of the generic signing commands for the key `k`. -/
def AsksAt (cfg : Config) (env : Env) (s : Dev) (ev : Event) (k : PathAndCurve) : Prop :=
  ∃ buf rx h, Received cfg s ev buf rx (.sign h) ∧ Asks env s (buf.getD 2 0) (buf.getD 3 0) (apduPayload buf) k

/-- The key to sign with is set by requests only. -/
theorem Dev.step_path (cfg : Config) (env : Env) (ev : Event) (s : Dev) :
    KeepsPath s (s.step cfg env ev).1 ∨
    ∃ k, AsksAt cfg env s ev k ∧ (s.step cfg env ev).1.path = some (k.path, k.curve) := by
  cases ev with
  | relaunch => exact .inl (.inr rfl)
  | apdu buf rx =>
    rcases s.apdu_cases cfg env buf rx with ⟨h, _⟩ | ⟨c, hrec, h⟩
    · rw [h]
      exact .inl (.inl rfl)
    have hd := (s.exec cfg env c (buf.getD 2 0) (buf.getD 3 0) (apduPayload buf)).deliver_kept.1.path
    rw [← h] at hd
    unfold KeepsPath
    rw [hd]
    cases s.exec_cases cfg env c (buf.getD 2 0) (buf.getD 3 0) (apduPayload buf) with
    | still p u hs hp =>
      rw [hs.1]
      rcases hp with hp | ⟨hh, k, rfl, hk, hp⟩
      · exact .inl (.inl hp)
      · exact .inr ⟨k, ⟨buf, rx, hh, hrec, hk⟩, hp⟩
    | opened w p u u' ho hout hsig hst hupl =>
      rw [hst]
      rcases (s.withUpload p u).show_keepsPath env w with hs | hs
      · rcases ho.path with hp | ⟨hh, k, rfl, hk, hp⟩
        · exact .inl (.inl (hs.trans hp))
        · exact .inr ⟨k, ⟨buf, rx, hh, hrec, hk⟩, hs.trans hp⟩
      · exact .inl (.inr hs)
    | reset p hc hp hl hr =>
      rw [hr]
      exact .inl (.inl (s.resetHwm_ram env _).1.path)
    | auto hh u u' q2 first m ref k digest hc hu hcv hp hk hd' hmg hout hs hst =>
      left; left
      rw [hst]
      change (Dev.autoSign env hh digest m (specDecide m) (s.withUpload s.path u)).st.path = _
      rcases (s.withUpload s.path u).autoSign_cases env hh digest m (specDecide m) (fun _ _ => specDecide_error) with
        hf | ⟨b, w, _, _, hf | ⟨_, k, sig, _, _, he⟩⟩
      · rw [hf.1]; rfl
      · rw [hf.1]; rfl
      · rw [he]; rfl
  | left =>
    left
    simp only [Dev.step]
    split
    · split
      · exact Dev.redraw_path _ _
      · exact Dev.onError_path _ _ _
      · exact .inl rfl
    · exact .inl rfl
  | right =>
    left
    simp only [Dev.step]
    split
    · split
      · exact Dev.redraw_path _ _
      · exact Dev.onError_path _ _ _
      · exact .inl rfl
    · exact .inl rfl
  | both =>
    left
    simp only [Dev.step]
    split
    · split
      · exact Dev.pressBoth_path _ _
      · exact Dev.onError_path _ _ _
      · exact .inl rfl
    · exact .inl rfl
  | expert =>
    left
    simp only [Dev.step]
    split <;> exact .inl rfl

theorem Dev.run_path {cfg : Config} {s : Dev} {es : List (Env × Event)} {k : PathAndCurve}
    (h : (s.run cfg es).1.path = some (k.path, k.curve)) : s.path = some (k.path, k.curve) ∨
      ∃ a m0 b, s.trace cfg es = a ++ m0 :: b ∧ AsksAt cfg m0.env m0.st m0.ev k := by
  induction es generalizing s with
  | nil => exact .inl h
  | cons e es ih =>
    rcases ih (s := (s.step cfg e.1 e.2).1) h with hp | ⟨a, m0, b, ht, hk⟩
    · rcases s.step_path cfg e.1 e.2 with (h' | h') | ⟨k', hk, h'⟩
      · exact .inl (h'.symm.trans hp)
      · rw [h'] at hp
        cases hp
      · rw [h'] at hp
        have : k' = k := by
          cases k
          cases k'
          cases hp
          rfl
        subst this
        exact .inr ⟨[], ⟨s, e.1, e.2, (s.step cfg e.1 e.2).2⟩, _, rfl, hk⟩
    · refine .inr ⟨⟨s, e.1, e.2, (s.step cfg e.1 e.2).2⟩ :: a, m0, b, ?_, hk⟩
      show _ :: _ = _
      rw [ht]
      rfl

/-- A request in the terms of the host's upload session. -/
theorem AsksAt.packet {cfg : Config} {env : Env} {s : Dev} {ev : Event} {k : PathAndCurve}
    {o : Option (Session Accessor)} (h : AsksAt cfg env s ev k) (hg : Good env ev) (hi : UplInv s.upl o) :
    ∃ pk q2 first data, ev.packet cfg.build = some pk ∧ pk.family = .sign ∧ (feed o pk).2 = some (q2, first, data) ∧
      Curve.ofByte q2 = some k.curve ∧ first = UInt8.ofNat k.path.length :: k.path.flatMap be32 := by
  obtain ⟨buf, rx, hh, hrec, u, q2, first, data, ref, hcomp, hcv, hpath⟩ := h
  have hfull : buf.length = 260 := by
    have := hg.full
    rw [hrec.ev] at this
    exact this
  rw [apduPayload_full hfull] at hcomp
  have hlen : (slice buf 5 (buf.getD 4 0).toNat).length ≤ 255 := by
    have := slice_length_le buf 5 (buf.getD 4 0).toNat
    have := (buf.getD 4 0).toNat_lt
    omega
  exact ⟨_, q2, first, data, hrec.packet, rfl, (hcomp.feed hi hlen hg.copy hg.append).1, hcv,
    (Path.read_ok.mp hpath).2.2.2⟩

/-- The event ends a review of the generic signing commands with a signature or with a rejection. -/
def EndsReview (m : Moment) : Prop :=
  ∃ hh d r msg, Rejects m.st m.ev (.sign hh d r msg) ∨ (Approves m.st m.ev (.sign hh d r msg) ∧ m.out.sig ≠ none)

/-- C44: a key can be used once per request: after a signature or a rejection, a later signature given on approval of
a review of the same commands is made with the key of a request that was completed in between. -/
theorem C44_key_from_new_request (cfg : Config) (new : NewDevice) (hu : new.upload.length = uploadCapacity)
    (es : List (Env × Event)) (hg : ∀ e ∈ es, Good e.1 e.2) (a b c : List Moment) (m1 m2 : Moment)
    (h : (Dev.factory new).trace cfg es = a ++ m1 :: (b ++ m2 :: c)) (h1 : EndsReview m1) (x : SigRec)
    (hx : m2.out.sig = some x) (h2 : ∃ hh d r msg, Approves m2.st m2.ev (.sign hh d r msg)) :
    ∃ b1 m0 b2 k q2 first data, b = b1 ++ m0 :: b2 ∧ m0.ev.packet cfg.build = some k ∧ k.family = .sign ∧
      (feed (sessionIn cfg (a ++ m1 :: b1)) k).2 = some (q2, first, data) ∧ Curve.ofByte q2 = some x.curve ∧
      first = UInt8.ofNat x.path.length :: x.path.flatMap be32 := by
  obtain ⟨ea, eb, rfl, _, _, _, ho1, hrest⟩ := Dev.trace_split h
  obtain ⟨ec, ed, rfl, _, hb', hm', ho2, _⟩ := Dev.trace_split hrest.symm
  have hnone : (m1.next cfg).path = none := by
    obtain ⟨hh, d, r, msg, hr | ⟨ha, hs⟩⟩ := h1
    · exact (C44_rejection cfg m1.env _ _ _ hr).2.2.2.2 _ _ _ _ rfl
    · rw [ho1] at hs
      obtain ⟨y, hy⟩ := Option.ne_none_iff_exists'.mp hs
      exact (C44_after_signature cfg m1.env _ _ _ y ha hy).2 _ _ _ _ rfl
  obtain ⟨hh, d, r, msg, ha2⟩ := h2
  rw [ho2] at hx
  have hp : m2.st.path = some (x.path, x.curve) := by
    cases Dev.step_signed hx with
    | review _ _ _ hp _ _ _ => exact hp
    | delegation _ _ _ ha' _ _ _ _ => cases ha2.unique ha'
    | consensus hh' buf rx hrec u q2 first ref hu hcv hp hk hd hs hr b it hb hi =>
      have := hrec.ev
      rw [ha2.ev] at this
      cases this
  rw [hm'] at hp
  rcases Dev.run_path (k := ⟨x.curve, x.path⟩) hp with hp | ⟨b1, m0, b2, ht, hk⟩
  · rw [hnone] at hp
    cases hp
  rw [← hb'] at ht
  subst ht
  have ht : (Dev.factory new).trace cfg (ea ++ (m1.env, m1.ev) :: (ec ++ (m2.env, m2.ev) :: ed)) =
      (a ++ m1 :: b1) ++ m0 :: (b2 ++ m2 :: c) := by rw [h]; simp
  have hgood : Good m0.env m0.ev := Good.trace hg m0 (by rw [ht]; simp)
  have hsess : UplInv m0.st.upl (sessionIn cfg (a ++ m1 :: b1)) := by
    obtain ⟨e1, e2, he, _, ha', hm0, _, _⟩ := Dev.trace_split ht
    rw [ha', hm0]
    exact factory_session hu fun e he' => hg e (by rw [he]; simp [he'])
  obtain ⟨pk, q2, first, data, h3, h4, h5, h6, h7⟩ := hk.packet hgood hsess
  exact ⟨b1, m0, b2, pk, q2, first, data, rfl, h3, h4, h5, h6, h7⟩

namespace Demo

set_option maxRecDepth 100000 in
/-- The hypotheses of the theorems above: an operation is signed, a second one is rejected, a third one is signed with
another key. -/
example :
    let es := signReview 0x04 delegation 11 ++ signReview 0x04 (delegation 1) 12 ++ signReview 0x12 (delegation 2) 11 keyPath2
    let t := (Dev.factory ⟨.small, List.replicate uploadCapacity 0⟩).trace walletApp es
    (es.all fun e => decide (Good e.1 e.2)) = true ∧
    (t.filterMap fun m => m.out.sig.map fun x => (x.path, x.msg, isConsensusMagic x.msg)) =
      [([0x8000002c, 0x800006c1], delegation, false),
       ([0x8000002c, 0x800006c1, 0x80000000], delegation 2, false)] ∧
    (t.filterMap fun m => if m.ev.isButton && m.out.reply.isSome then m.out.reply.map List.length else none) =
      [66, 2, 98] ∧
    (t[28]?.map fun m => decide (m.out.reply = some [0x69, 0x86] ∧ m.st.zui.chosen = .reject ∧ m.ev = .both)) =
      some true := by
  decide +kernel

set_option maxRecDepth 100000 in
/-- The same for a delegation with the baking commands. -/
example :
    let es := authorize ++ signReview 0x04 delegation 11
    let t := (Dev.factory ⟨.small, List.replicate uploadCapacity 0⟩).trace bakingApp es
    (es.all fun e => decide (Good e.1 e.2)) = true ∧
    (t.filterMap fun m => m.out.sig.map fun x => (x.path, x.msg)) =
      [([0x8000002c, 0x800006c1], delegation)] := by
  decide +kernel

end Demo

end Tezos
