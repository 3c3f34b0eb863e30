import Verif.Props.WalkX
import Verif.Props.Consensus
import Verif.Props.Replies
/-
C84: what is asked for properly can be had. From uploading a message, through reading its review, to the signature in the
reply.
-/
set_option linter.unusedSimpArgs false
set_option linter.unusedVariables false
namespace Tezos
open Spec

/-! ### Reading a review -/

/-- The screens of a review with these items, up to the one that asks for the approval. -/
def readingScreens (d : Display) (fs : List Field) : List Screen :=
  match d with
  | .small => fieldScreens fs
  | .large => SeenX.please.screen :: fs.map fun f => (SeenX.shows f).screen

theorem shownItems_fields {v : Viewer} {fs : List Field}
    (h : ∀ (i : Nat) (f : Field), fs[i]? = some f → v.item (UInt8.ofNat i) = .ok f) :
    shownItems v fs.length = fs.map SeenX.shows := by
  have hok : ∀ i < fs.length, ∃ f, v.item (UInt8.ofNat i) = .ok f := fun i hi =>
    ⟨_, h i _ (List.getElem?_eq_getElem hi)⟩
  refine List.ext_getElem? fun i => ?_
  rcases Nat.lt_or_ge i fs.length with hi | hi
  · rw [shownItems_getElem hok hi (h i _ (List.getElem?_eq_getElem hi))]
    simp [hi]
  · rw [List.getElem?_eq_none (by rw [shownItems_length hok]; exact hi), List.getElem?_eq_none (by simpa using hi)]

/-- A review that a command has brought to the display, and all items of which can be displayed, can be read and approved
on either display. -/
theorem Moment.Opens.read {cfg : Config} {m : Moment} {v : View} (hs : m.env.cr.Sized) (ho : m.Opens cfg v)
    (hon : (m.next cfg).OnScreen) {env : Env} (hc : env.cr = m.env.cr) {w : Viewer}
    (hw : w = v.viewer env.cr (m.next cfg).upl.buf) {num : UInt8} (hn : w.numItems = .ok num) (hpos : 0 < num.toNat)
    (hi : ∀ i < num.toNat, ∃ f, w.item (UInt8.ofNat i) = .ok f) (hend : w.item num = .error .noData) :
    ∃ fs z, fs.length = num.toNat ∧ (∀ (i : Nat) (f : Field), fs[i]? = some f → w.item (UInt8.ofNat i) = .ok f) ∧
      (m.next cfg).run cfg (List.replicate (readingScreens m.st.zui.display fs).length (env, .right)) =
        ({ m.next cfg with zui := z }, List.replicate (readingScreens m.st.zui.display fs).length .quiet) ∧
      ((m.next cfg).trace cfg (List.replicate (readingScreens m.st.zui.display fs).length (env, .right))).map
        (fun x => x.st.zui.screen) = readingScreens m.st.zui.display fs ∧
      Approves { m.next cfg with zui := z } .both v := by
  obtain ⟨fs, h1, h2, h3⟩ := reviewScreens_fields hi
  have h4 := shownItems_fields h3
  rw [h1] at h4
  refine ⟨fs, ?_⟩
  cases hd : m.st.zui.display with
  | small =>
    obtain ⟨z, z', a, b, c, -, -⟩ := C76_device cfg m v hd hs ho hon env hc w hw num hn hpos hi
    have hl : (readingScreens .small fs).length = (reviewPages w num.toNat).length := by
      show (fieldScreens fs).length = _
      rw [← h2, reviewScreens, List.length_map]
    rw [hl]
    exact ⟨z, h1, h3, a, b.trans h2, c⟩
  | large =>
    obtain ⟨z, z', a, b, c, -, -⟩ := C75_device cfg m v hd hs ho hon env hc w hw num hn hpos hi hend
    have hl : (readingScreens .large fs).length = num.toNat + 1 := by simp [readingScreens, h1]
    rw [hl]
    refine ⟨z, h1, h3, a, b.trans ?_, c⟩
    rw [h4, List.map_map]
    rfl

/-- What the approval answers. -/
theorem Approves.answer {cfg : Config} {s : Dev} {v : View} (h : Approves s .both v) (env : Env) {data : Bytes}
    (ha : (v.accept env s.idle).out = .ok data) :
    (s.step cfg env .both).2 = ⟨some (data ++ [0x90, 0x00]), (v.accept env s.idle).sig, none⟩ := by
  obtain ⟨-, h1, h2⟩ := h.step (cfg := cfg) env
  obtain ⟨hrun, -, ⟨k, l1, l2, hscr⟩, hact, hview⟩ := h
  have hsw : statusWord .success = [0x90, 0x00] := by decide
  have hdel : (v.accept env s.idle).deliver =
      ((v.accept env s.idle).st, ⟨some (data ++ [0x90, 0x00]), (v.accept env s.idle).sig, none⟩) := by
    unfold Res.deliver
    rw [ha, hsw]
  rw [hdel] at h1 h2
  have happ : s.approve env = ({ (v.accept env s.idle).st with view := none },
      ⟨some (data ++ [0x90, 0x00]), (v.accept env s.idle).sig, none⟩) := by
    have : s.approve env = ({ (v.accept env s.idle).deliver.1 with view := none }, (v.accept env s.idle).deliver.2) := by
      unfold Dev.approve
      dsimp only
      split
      · rename_i hw
        rw [hview] at hw
        cases hw
      · rename_i w hw
        rw [hview] at hw
        cases hw
        rfl
    rw [this, hdel]
  have hf : (s.step cfg env .both).2.fault = none := by
    have hstep : s.step cfg env .both = s.pressBoth env := by simp only [Dev.step, hrun, if_true, hscr]
    rw [hstep]
    unfold Dev.pressBoth
    simp only [hact, happ]
    split
    · rfl
    · rfl
  cases ho : (s.step cfg env .both).2 with
  | mk a b c =>
    rw [ho] at h1 h2 hf
    simp only at h1 h2 hf
    rw [h1, h2, hf]

/-! ### Opening a review -/

/-- A review all items of which can be displayed comes to the display. -/
theorem Opens.shows {env : Env} (he : env.cr.Sized) {s : Dev} {p1 p2 : UInt8} {payload : Option Bytes} {c : Cmd}
    {v : View} {p : Option (Path × Curve)} {u : Upl} (ho : Opens env s p1 p2 payload c v p u) {num : UInt8}
    (hn : (v.viewer env.cr u.buf).numItems = .ok num) (hpos : 0 < num.toNat)
    (hi : ∀ i < num.toNat, ∃ f, (v.viewer env.cr u.buf).item (UInt8.ofNat i) = .ok f) (z : Zui) :
    ∃ z', z.openReview (v.viewer env.cr u.buf) = .shown z' ∧ ∃ k l1 l2, z'.screen = .review k l1 l2 := by
  unfold Zui.openReview
  cases z.large with
  | none =>
    have hl : Legible (v.viewer env.cr u.buf) num := ⟨hn, fun i h => by
      obtain ⟨f, hf⟩ := hi i h
      exact ⟨f, hf, ho.uneven he ⟨rfl, rfl⟩ he (UInt8.ofNat i) f hf⟩⟩
    obtain ⟨z1, -, h1, -⟩ := C76_walk hl hpos z
    exact ⟨z1, h1, reviewUpdate_screen h1⟩
  | some l => exact ⟨_, rfl, _, _, _, rfl⟩

/-- A command that shows a review all items of which can be displayed. -/
theorem Dev.brings {cfg : Config} {env : Env} {s : Dev} {ev : Event} {buf : Bytes} {rx : Nat} {c : Cmd} {v : View}
    {p : Option (Path × Curve)} {u u' : Upl} (he : env.cr.Sized) (hrec : Received cfg s ev buf rx c)
    (ho : Opens env s (buf.getD 2 0) (buf.getD 3 0) (apduPayload buf) c v p u)
    (hout : (s.exec cfg env c (buf.getD 2 0) (buf.getD 3 0) (apduPayload buf)).out =
      ((s.withUpload p u).show env v).out)
    (hst : (s.exec cfg env c (buf.getD 2 0) (buf.getD 3 0) (apduPayload buf)).st =
      { ((s.withUpload p u).show env v).st with upl := u' })
    (hupl : u' = u ∨ ∃ acc, u' = u.drop acc) {num : UInt8} (hn : (v.viewer env.cr u.buf).numItems = .ok num)
    (hpos : 0 < num.toNat) (hi : ∀ i < num.toNat, ∃ f, (v.viewer env.cr u.buf).item (UInt8.ofNat i) = .ok f) :
    (∀ out, Moment.Opens cfg ⟨s, env, ev, out⟩ v) ∧ (s.step cfg env ev).1.OnScreen ∧
    ∃ z, s.step cfg env ev = ({ s with path := p, upl := u', view := some v, zui := z }, .quiet) := by
  obtain ⟨z, hz, hscr⟩ := ho.shows he hn hpos hi s.zui
  have hshow : (s.withUpload p u).show env v =
      ⟨{ s with path := p, upl := u, view := some v, zui := z }, .shown none, none⟩ := by
    unfold Dev.show
    simp only [Dev.withUpload, hz]
  have hstep : s.step cfg env ev = ({ s with path := p, upl := u', view := some v, zui := z }, .quiet) := by
    rw [hrec.step, Res.deliver, hout, hst, hshow]
    rfl
  have hopen := Dev.opened_at hrec ho hout hst hupl (by rw [hshow])
  refine ⟨fun out => hopen, ?_, z, hstep⟩
  rw [hstep]
  exact ⟨hrec.running, hscr⟩

/-! ### From the upload to the approval -/

/-- The user reads a review: the right button, once for each screen, and then both buttons. -/
def readAndApprove (env : Env) (screens : List Screen) : List (Env × Event) :=
  List.replicate screens.length (env, .right) ++ [(env, .both)]

/-- An upload that is given to `finish`, which opens the review `v` and looks like `w`. -/
theorem Dev.reviewed {cfg : Config} {s : Dev} (hrun : s.running = true) {o : Option (Session Accessor)}
    (hinv : UplInv s.upl o) {ins p1 p2 q2 : UInt8} {c : Cmd} {acc : Accessor}
    (hcmd : command cfg.build ins = some c) (hfam : familyOf cfg.build ins = some acc) {key d1 d2 : Bytes}
    (hfit : 1 + key.length + (d1 ++ d2).length ≤ 8191) {us : List (Env × Event)} {env : Env} {ev : Event}
    (hg : ∀ e ∈ us, Good e.1 e.2) (hge : env.copyF = .done ∧ env.appendF = .done)
    (hup : Uploading ins p2 key d1 (us.map Prod.snd)) (hev : Carries ev ins p1 q2 d2) (hr : role p1 = some .closing)
    (he : env.cr.Sized) {w : Viewer} {p : Option (Path × Curve)}
    {finish : UInt8 → Bytes → Bytes → MemRef → Dev → Res}
    (hexec : ∀ s : Dev, s.exec cfg env c p1 q2 (some d2) = s.cmdUpload env acc p1 q2 (some d2) finish)
    {Q : View → Prop}
    (hopen : ∀ u u' ref, Completes env { s with upl := u } acc p1 q2 (some d2) u' p2 key (d1 ++ d2) ref →
      ∃ v, Q v ∧ Opens env { s with upl := u } p1 q2 (some d2) c v p u' ∧
        finish p2 key (d1 ++ d2) ref { s with upl := u' } = (({ s with upl := u } : Dev).withUpload p u').show env v ∧
        ∀ b, SameMemory u'.buf b → v.viewer env.cr b = w)
    {num : UInt8} (hn : w.numItems = .ok num) (hpos : 0 < num.toNat)
    (hi : ∀ i < num.toNat, ∃ f, w.item (UInt8.ofNat i) = .ok f) (hend : w.item num = .error .noData)
    (env' : Env) (hcr : env'.cr = env.cr) :
    ∃ fs, fs.length = num.toNat ∧ (∀ (i : Nat) (f : Field), fs[i]? = some f → w.item (UInt8.ofNat i) = .ok f) ∧
      ((s.run cfg (us ++ [(env, ev)])).1.trace cfg
        (readAndApprove env' (readingScreens s.zui.display fs)).dropLast).map (fun x => x.st.zui.screen) =
        readingScreens s.zui.display fs ∧
      ∃ v s', Q v ∧ Approves s' .both v ∧ s'.path = p ∧ s'.key = s.key ∧
        ∀ data, (v.accept env' s'.idle).out = .ok data →
          (s.run cfg (us ++ (env, ev) :: readAndApprove env' (readingScreens s.zui.display fs))).2 =
            (us.map fun _ => ⟨some [0x90, 0x00], none, none⟩) ++
            .quiet :: (List.replicate (readingScreens s.zui.display fs).length .quiet ++
              [⟨some (data ++ [0x90, 0x00]), (v.accept env' s'.idle).sig, none⟩]) := by
  simp only [List.length_append] at hfit
  obtain ⟨u, hui, hrun'⟩ := hup.run hfam hrun hinv (by unfold uploadCapacity; omega) hg
  have hrun1 : ({ s with upl := u } : Dev).running = true := hrun
  obtain ⟨buf, hrec, h2, h3, hpl⟩ := hev.received (s := { s with upl := u }) hrun1 hcmd
  have hfeed : (Spec.feed (some ⟨acc, p2, key, d1⟩) ⟨acc, p1, q2, d2⟩).2 = some (p2, key, d1 ++ d2) := by
    simp only [Spec.feed, hr, true_and]
    rw [if_pos (by unfold uploadCapacity; omega)]
  obtain ⟨u', ref, hcomp⟩ := Completes.of_feed (env := env) (s := { s with upl := u }) hui hev.length hge.1 hge.2 hfeed
  obtain ⟨v, hq, ho, hfin, hview⟩ := hopen u u' ref hcomp
  have hview0 := hview u'.buf ⟨rfl, rfl⟩
  have hex : Dev.exec cfg env c p1 q2 (some d2) { s with upl := u } =
      { (({ s with upl := u } : Dev).withUpload p u').show env v with
        st := { ((({ s with upl := u } : Dev).withUpload p u').show env v).st with upl := u'.drop acc } } := by
    rw [hexec]
    simp only [Dev.cmdUpload, hcomp.eq]
    rw [hfin]
    simp only [Dev.show_upl]
    rfl
  rw [← h2, ← h3, ← hpl] at ho hex
  obtain ⟨hopen, hon, z, hstep⟩ := Dev.brings (u' := u'.drop acc) he hrec ho (by rw [hex]) (by rw [hex])
    (.inr ⟨_, rfl⟩) (by rw [hview0]; exact hn) hpos (by rw [hview0]; exact hi)
  have hw : w = v.viewer env'.cr (Moment.next cfg ⟨{ s with upl := u }, env, ev, .quiet⟩).upl.buf := by
    rw [hcr, Moment.next, hstep, hview _ (SameMemory.drop acc u')]
  obtain ⟨fs, z', f1, f2, f3, f4, f5⟩ := (hopen .quiet).read (m := ⟨{ s with upl := u }, env, ev, .quiet⟩) he hon hcr
    hw hn hpos hi hend
  have hnext : Moment.next cfg ⟨{ s with upl := u }, env, ev, .quiet⟩ =
      (({ s with upl := u } : Dev).step cfg env ev).1 := rfl
  rw [hnext, hstep] at f3 f4 f5
  refine ⟨fs, f1, f2, ?_, v, _, hq, f5, rfl, rfl, fun data hdata => ?_⟩
  · rw [Dev.run_append, hrun', readAndApprove, List.dropLast_concat]
    simp only [Dev.run, hstep]
    exact f4
  · rw [Dev.run_append_out, hrun']
    have hack : acknowledged = ⟨some [0x90, 0x00], none, none⟩ := by decide
    rw [hack]
    congr 1
    simp only [Dev.run, hstep, List.cons.injEq, true_and]
    rw [readAndApprove, Dev.run_append_out, f3]
    congr 1
    simp only [Dev.run, List.cons.injEq, and_true]
    exact f5.answer env' hdata

/-- The replies to an upload the packets of which are acknowledged, to reading the review, and to approving it. -/
def signedReplies (us : List (Env × Event)) (screens : List Screen) (withDigest : Bool) (x : SigRec) : List Output :=
  (us.map fun _ => ⟨some [0x90, 0x00], none, none⟩) ++
    .quiet :: (List.replicate screens.length .quiet ++
      [⟨some ((if withDigest then x.digest else []) ++ x.sig ++ [0x90, 0x00]), some x, none⟩])

/-- A message for the general signing instructions. -/
theorem Dev.signable {cfg : Config} {s : Dev} (hrun : s.running = true) {o : Option (Session Accessor)}
    (hinv : UplInv s.upl o) {ins p1 p2 q2 : UInt8} {h : Bool} (hcmd : command cfg.build ins = some (.sign h))
    (hfam : familyOf cfg.build ins = some .sign) {k : PathAndCurve} (hc : Curve.ofByte p2 = some k.curve)
    (hk : 1 ≤ k.path.length ∧ k.path.length ≤ 10) {d1 d2 : Bytes}
    (hfit : 1 + k.path.serialize.length + (d1 ++ d2).length ≤ 8191) {us : List (Env × Event)} {env : Env} {ev : Event}
    (hg : ∀ e ∈ us, Good e.1 e.2) (hge : env.copyF = .done ∧ env.appendF = .done)
    (hup : Uploading ins p2 k.path.serialize d1 (us.map Prod.snd)) (hev : Carries ev ins p1 q2 d2)
    (hr : role p1 = some .closing) (he : env.cr.Sized) {digest sig : Bytes}
    (hd : env.cr.blake2b 32 (d1 ++ d2) = some digest)
    (hm : (∃ rem ops, d1 ++ d2 = 0x03 :: rem ∧ operationNew rem = .ok ops) ∨ ∃ rem, d1 ++ d2 = 0x05 :: rem)
    {num : UInt8} (hn : (reviewOf env.cr digest (d1 ++ d2)).numItems = .ok num) (hpos : 0 < num.toNat)
    (hi : ∀ i < num.toNat, ∃ f, (reviewOf env.cr digest (d1 ++ d2)).item (UInt8.ofNat i) = .ok f)
    (hend : (reviewOf env.cr digest (d1 ++ d2)).item num = .error .noData) (env' : Env) (hcr : env'.cr = env.cr)
    (hsig : env'.cr.sign k.curve k.path digest = some sig) :
    ∃ fs, fs.length = num.toNat ∧
      (∀ (i : Nat) (f : Field), fs[i]? = some f →
        (reviewOf env.cr digest (d1 ++ d2)).item (UInt8.ofNat i) = .ok f) ∧
      ((s.run cfg (us ++ [(env, ev)])).1.trace cfg
        (readAndApprove env' (readingScreens s.zui.display fs)).dropLast).map (fun x => x.st.zui.screen) =
        readingScreens s.zui.display fs ∧
      (s.run cfg (us ++ (env, ev) :: readAndApprove env' (readingScreens s.zui.display fs))).2 =
        signedReplies us (readingScreens s.zui.display fs) h ⟨k.curve, k.path, digest, d1 ++ d2, sig⟩ := by
  have hpath : Path.read bip32MaxLength k.path.serialize = .ok k.path := by
    rw [Path.read_ok]
    exact ⟨hk.1, hk.2, by simp only [List.length_append] at hfit; omega, rfl⟩
  obtain ⟨fs, f1, f2, f3, v, s', ⟨r, rfl⟩, f4, f5, f6, f7⟩ := Dev.reviewed (cfg := cfg) hrun hinv hcmd hfam hfit hg hge
    hup hev hr he (w := reviewOf env.cr digest (d1 ++ d2)) (p := some (k.path, k.curve)) (fun s => rfl)
    (Q := fun v => ∃ r, v = .sign h digest r (d1 ++ d2)) (by
      intro u u' ref hcomp
      have hwp : ∀ f, Dev.withPath { s with upl := u' } bip32MaxLength p2 (some k.path.serialize) f = f k :=
        Dev.withPath_ok hc hpath
      unfold Dev.startSign
      rw [hwp]
      simp only [hd]
      rcases hm with ⟨rem, ops, hm, hops⟩ | ⟨rem, hm⟩
      · rw [hm] at hd hcomp ⊢
        have hpre : Preamble.parse (0x03 :: rem) = .ok (rem, .operation) := rfl
        simp only [hpre, hops]
        have ho := Opens.operation (h := h) hcomp hc hpath hd hops
        exact ⟨_, ⟨_, rfl⟩, ho, rfl, fun b hb => ho.viewer_sign hb env.cr⟩
      · rw [hm] at hd hcomp ⊢
        have hpre : Preamble.parse (0x05 :: rem) = .ok (rem, .michelson) := rfl
        simp only [hpre]
        have ho := Opens.michelson (h := h) hcomp hc hpath hd
        exact ⟨_, ⟨_, rfl⟩, ho, rfl, fun b hb => ho.viewer_sign hb env.cr⟩)
    hn hpos hi hend env' hcr
  refine ⟨fs, f1, f2, f3, ?_⟩
  have hacc : (View.sign h digest r (d1 ++ d2)).accept env' s'.idle =
      ⟨{ s'.idle with path := none }, .ok (sigReply h digest sig), some ⟨k.curve, k.path, digest, d1 ++ d2, sig⟩⟩ := by
    simp only [View.accept, Dev.idle, f5, hsig]
  rw [f7 _ (by rw [hacc]), hacc]
  rfl

/-! ### What the user reads -/

/-- All items of a review are read on the way to the approval. -/
theorem read_fields {cr : Crypto} {d : Display} {fs : List Field} {w : Viewer} {items : List (String × Shown)}
    (hl : fs.length = items.length)
    (hf : ∀ (i : Nat) (f : Field), fs[i]? = some f → w.item (UInt8.ofNat i) = .ok f) (hp : ∀ e ∈ items, Plain e)
    (hi : ∀ (n : Nat) e, items[n]? = some e → Renders cr (w.item (UInt8.ofNat n)) e) :
    ∀ e ∈ items, UserRead cr.hashes (readingScreens d fs) e := by
  intro e he
  obtain ⟨n, hn⟩ := List.mem_iff_getElem?.mp he
  have hlt := (List.getElem?_eq_some_iff.mp hn).1
  have hfn : fs[n]? = some (fs[n]'(by omega)) := List.getElem?_eq_getElem _
  have hmem : fs[n]'(by omega) ∈ fs := List.getElem_mem _
  refine userRead_of_shown (hp e he) ((hi n e hn).correct _ (hf n _ hfn)) ?_
  cases d with
  | small =>
    refine .inl fun j hj => ⟨screenOf (fs[n]'(by omega)) j, ?_, screenOf_shows hj⟩
    exact List.mem_flatMap.mpr ⟨_, hmem, List.mem_map.mpr ⟨j, List.mem_range.mpr hj, rfl⟩⟩
  | large => exact .inr ⟨_, List.mem_cons_of_mem _ (List.mem_map.mpr ⟨_, hmem, rfl⟩), rfl⟩

/-- The packets `us` and then `ev` upload the message `msg` for the key `k` with instruction `ins`, cut into packets in
any way, and no write to the flash fails. -/
structure Sent (ins : UInt8) (k : PathAndCurve) (msg : Bytes) (us : List (Env × Event)) (env : Env) (ev : Event) :
    Prop where
  ex : ∃ p1 p2 q2 d1 d2, msg = d1 ++ d2 ∧ Curve.ofByte p2 = some k.curve ∧
    Uploading ins p2 k.path.serialize d1 (us.map Prod.snd) ∧ Carries ev ins p1 q2 d2 ∧ role p1 = some .closing
  path : 1 ≤ k.path.length ∧ k.path.length ≤ 10
  fit : 1 + k.path.serialize.length + msg.length ≤ 8191
  flash : ∀ e ∈ us, e.1.copyF = .done ∧ e.1.appendF = .done
  last : env.copyF = .done ∧ env.appendF = .done

theorem Sent.good {ins : UInt8} {k : PathAndCurve} {msg : Bytes} {us : List (Env × Event)} {env : Env} {ev : Event}
    (h : Sent ins k msg us env ev) : ∀ e ∈ us, Good e.1 e.2 := by
  obtain ⟨p1, p2, q2, d1, d2, -, -, hup, -, -⟩ := h.ex
  intro e he
  exact ⟨(h.flash e he).1, (h.flash e he).2, hup.full _ (List.mem_map_of_mem he)⟩

/-- The instructions that sign operations with any key. -/
def generalIns : Build → List UInt8
  | .baking => [0x12]
  | .wallet => [0x04, 0x05, 0x0F, 0x12]

theorem command_general {b : Build} {ins : UInt8} (h : ins ∈ generalIns b) :
    command b ins = some (.sign (decide (ins ∈ hashInstructions))) ∧ familyOf b ins = some .sign := by
  cases b <;> simp only [generalIns, List.mem_cons, List.not_mem_nil, or_false] at h
  · subst h; decide
  · rcases h with rfl | rfl | rfl | rfl <;> decide

/-- The user reads these screens, one after the other, with the right button, and then presses both buttons; the
computer had sent `us` and `ev` before. Everything is acknowledged, and the approval is answered with the signature `x`,
after the digest if that is asked for. -/
structure SignedAfterReading (cfg : Config) (s : Dev) (us : List (Env × Event)) (env : Env) (ev : Event) (env' : Env)
    (screens : List Screen) (withDigest : Bool) (x : SigRec) : Prop where
  seen : ((s.run cfg (us ++ [(env, ev)])).1.trace cfg (List.replicate screens.length (env', .right))).map
    (fun m => m.st.zui.screen) = screens
  replies : (s.run cfg (us ++ (env, ev) :: readAndApprove env' screens)).2 = signedReplies us screens withDigest x

/-! ### C84 -/

/-- **C84, partial.** Whatever was done before, a batch of valid operations that is uploaded for signing can be read and
signed, on either display: the right button shows every item there must be, with a text that says what it must, and then
both buttons get the signature of the digest of this message, made with the key that was asked for.

Missing for the full claim: batches with more than 255 items, with numbers that are not below `2 ^ 28`, or too long for
the upload buffer. -/
theorem C84_batch_signed_partial (cfg : Config) (new : NewDevice) (hu : new.upload.length = uploadCapacity)
    (es : List (Env × Event)) (hes : ∀ e ∈ es, Good e.1 e.2) (s : Dev) (hs : s = ((Dev.factory new).run cfg es).1)
    (hrun : s.running = true) (ins : UInt8) (hins : ins ∈ generalIns cfg.build) (k : PathAndCurve) (branch : Bytes)
    (hb : branch.length = 32) (os : List Operation) (hv : ∀ o ∈ os, o.Valid) (rest : Bytes) (hr : IsOpaque rest)
    (hn : (batchReview branch os rest).length < 256) (hread : ∀ e ∈ batchReview branch os rest, e.2.Readable)
    (msg : Bytes) (hmsg : msg = 0x03 :: (branch ++ (os.flatMap Operation.encode ++ rest))) (us : List (Env × Event))
    (env : Env) (ev : Event) (hsent : Sent ins k msg us env ev) (hw : env.cr.Works) (env' : Env)
    (hcr : env'.cr = env.cr) (digest sig : Bytes) (hd : env.cr.blake2b 32 msg = some digest)
    (hsig : env.cr.sign k.curve k.path digest = some sig) :
    ∃ screens, (∀ e ∈ batchReview branch os rest, UserRead env.cr.hashes screens e) ∧
      SignedAfterReading cfg s us env ev env' screens (decide (ins ∈ hashInstructions))
        ⟨k.curve, k.path, digest, msg, sig⟩ := by
  obtain ⟨hcmd, hfam⟩ := command_general hins
  have hinv := factory_session (cfg := cfg) hu hes
  rw [← hs] at hinv
  obtain ⟨p1, p2, q2, d1, d2, rfl, hc, hup, hev, hrole⟩ := hsent.ex
  have hrev := reviewOf_batch env.cr digest hb (os.flatMap Operation.encode ++ rest)
  rw [← hmsg] at hrev
  obtain ⟨hnum, hrend⟩ := C57_review env.cr branch hb os hv rest hr hn
  have hp := parseOps_batch os hv rest hr
  have hlen := batchReview_length branch os rest
  have hto : (UInt8.ofNat (batchReview branch os rest).length).toNat = (batchReview branch os rest).length := by
    simp only [UInt8.toNat_ofNat']; omega
  have hpos : 0 < (batchReview branch os rest).length := by simp [batchReview]
  obtain ⟨fs, f1, f2, f3, f4⟩ := Dev.signable (cfg := cfg) hrun hinv hcmd hfam hc hsent.path hsent.fit hsent.good
    hsent.last hup hev hrole hw.sized hd
    (.inl ⟨_, (branch, os.flatMap Operation.encode ++ rest), hmsg, by
      unfold operationNew
      rw [nTake_append' hb]
      rfl⟩)
    (num := UInt8.ofNat (batchReview branch os rest).length) (by rw [hrev]; exact hnum) (by rw [hto]; exact hpos)
    (by
      intro i hi
      rw [hto] at hi
      rw [hrev]
      exact ((hrend i _ (List.getElem?_eq_getElem hi)).shown hw).mpr (hread _ (List.getElem_mem hi)))
    (by
      rw [hrev]
      show signOpItem _ _ _ _ = _
      rw [(C39_item_order env.cr branch _ _ hp (by rw [← hlen]; exact hn)).2 _ (by
        intro h
        rw [h] at hto
        simp at hto
        omega), hto, List.getElem?_eq_none_iff.mpr (by
          rw [allFields_length]
          unfold totalItems at hlen
          omega)])
    env' hcr (by rw [hcr]; exact hsig)
  rw [hto] at f1
  rw [readAndApprove, List.dropLast_concat] at f3
  exact ⟨_, read_fields f1 f2 (batchReview_plain hn) (by rw [hrev]; exact hrend), f3, f4⟩

/-- C84: a Michelson expression that is uploaded for signing can be signed, after reading its digest in hexadecimal. -/
theorem C84_expression_signed (cfg : Config) (new : NewDevice) (hu : new.upload.length = uploadCapacity)
    (es : List (Env × Event)) (hes : ∀ e ∈ es, Good e.1 e.2) (s : Dev) (hs : s = ((Dev.factory new).run cfg es).1)
    (hrun : s.running = true) (ins : UInt8) (hins : ins ∈ generalIns cfg.build) (k : PathAndCurve) (rem : Bytes)
    (us : List (Env × Event)) (env : Env) (ev : Event) (hsent : Sent ins k (0x05 :: rem) us env ev)
    (hw : env.cr.Sized) (env' : Env) (hcr : env'.cr = env.cr) (digest sig : Bytes)
    (hd : env.cr.blake2b 32 (0x05 :: rem) = some digest) (hsig : env.cr.sign k.curve k.path digest = some sig) :
    ∃ screens, (∃ text, readHex text = some digest ∧ Reads screens (ascii "Sign Michelson") text) ∧
      SignedAfterReading cfg s us env ev env' screens (decide (ins ∈ hashInstructions))
        ⟨k.curve, k.path, digest, 0x05 :: rem, sig⟩ := by
  obtain ⟨hcmd, hfam⟩ := command_general hins
  have hinv := factory_session (cfg := cfg) hu hes
  rw [← hs] at hinv
  obtain ⟨p1, p2, q2, d1, d2, hmsg, hc, hup, hev, hrole⟩ := hsent.ex
  have hfit := hsent.fit
  rw [hmsg] at hd hfit
  have hrev : reviewOf env.cr digest (d1 ++ d2) = ⟨.ok 1, signMichelsonItem digest⟩ := by rw [← hmsg]; rfl
  obtain ⟨fs, f1, f2, f3, f4⟩ := Dev.signable (cfg := cfg) hrun hinv hcmd hfam hc hsent.path hfit hsent.good
    hsent.last hup hev hrole hw hd (.inr ⟨rem, hmsg.symm⟩) (num := 1) (by rw [hrev]) (by decide)
    (by
      intro i hi
      have : (1 : UInt8).toNat = 1 := rfl
      obtain rfl : i = 0 := by omega
      rw [hrev]
      exact ⟨_, rfl⟩)
    (by rw [hrev]; rfl) env' hcr (by rw [hcr]; exact hsig)
  rw [readAndApprove, List.dropLast_concat] at f3
  rw [← hmsg] at f4
  have hread := read_fields (cr := env.cr) (d := s.zui.display) (items := [("Sign Michelson", .hex digest)]) f1 f2
    (by
      intro e he
      rw [List.mem_singleton.mp he]
      exact plain_text (by decide +kernel) (fun _ h => by cases h)) (by
      intro n e he
      match n, he with
      | 0, he =>
        cases he
        rw [hrev]
        exact renders_const (by rw [hex_visible]; exact readHex_encode _) (.inl (hex_visible _).symm) trivial)
  obtain ⟨text, ht, hrd, -⟩ := hread ("Sign Michelson", .hex digest) (by simp)
  have ht : readHex text = some digest := ht
  rw [printable_dotted (readHex_printable ht)] at hrd
  exact ⟨_, ⟨text, ht, hrd⟩, f3, f4⟩

/-- **C84, partial**, for the baking instructions: a message that begins with a valid delegation or revelation, uploaded
for the key that is authorized, can be read and signed.

Missing for the full claim: numbers that are not below `2 ^ 28`. -/
theorem C84_delegation_signed_partial (cfg : Config) (hcfg : cfg.build = .baking) (new : NewDevice)
    (hu : new.upload.length = uploadCapacity) (es : List (Env × Event)) (hes : ∀ e ∈ es, Good e.1 e.2) (s : Dev)
    (hs : s = ((Dev.factory new).run cfg es).1) (hrun : s.running = true) (ins : UInt8)
    (hins : ins ∈ [0x04, 0x0F, 0xAF]) (k : PathAndCurve) (hk : s.storedKey = some k) (branch : Bytes)
    (hb : branch.length = 32) (o : Operation) (hv : o.Valid)
    (hkind : (∃ m d, o = .delegation m d) ∨ ∃ m kind key, o = .reveal m kind key)
    (hread : ∀ e ∈ batchReview branch [o] [], e.2.Readable) (tail msg : Bytes)
    (hmsg : msg = 0x03 :: (branch ++ (o.encode ++ tail))) (us : List (Env × Event)) (env : Env) (ev : Event)
    (hsent : Sent ins k msg us env ev) (hw : env.cr.Works) (env' : Env) (hcr : env'.cr = env.cr) (digest sig : Bytes)
    (hd : env.cr.blake2b 32 msg = some digest) (hsig : env.cr.sign k.curve k.path digest = some sig) :
    ∃ screens, (∀ e ∈ batchReview branch [o] [], UserRead env.cr.hashes screens e) ∧
      SignedAfterReading cfg s us env ev env' screens (decide (ins ∈ hashInstructions))
        ⟨k.curve, k.path, digest, msg, sig⟩ := by
  obtain ⟨hcmd, hfam⟩ := command_baking_sign hins
  rw [← hcfg] at hcmd hfam
  have hinv := factory_session (cfg := cfg) hu hes
  rw [← hs] at hinv
  obtain ⟨p1, p2, q2, d1, d2, rfl, hc, hup, hev, hrole⟩ := hsent.ex
  have hpath : Path.read bip32MaxLength k.path.serialize = .ok k.path := by
    rw [Path.read_ok]
    exact ⟨hsent.path.1, hsent.path.2, by have := hsent.path.2; omega, rfl⟩
  have hnew : operationNew (branch ++ (o.encode ++ tail)) = .ok (branch, o.encode ++ tail) := by
    unfold operationNew
    rw [nTake_append' hb]
    rfl
  have hnext : parseNext (o.encode ++ tail) = .ok (some (tail, Op.ofSpec o)) := parseNext_of (C31_decode_encode o hv tail)
  have hop : (∃ d, Op.ofSpec o = .delegation d) ∨ ∃ r, Op.ofSpec o = .reveal r := by
    rcases hkind with ⟨m, d, rfl⟩ | ⟨m, kind, key, rfl⟩
    · exact .inl ⟨_, rfl⟩
    · exact .inr ⟨_, rfl⟩
  have hlen : (batchReview branch [o] []).length = (Op.ofSpec o).uiItems + 1 := by
    simp [batchReview, opaqueReview, Op.uiItems_review]
  have h8 : (Op.ofSpec o).uiItems = 7 := by rcases hkind with ⟨m, d, rfl⟩ | ⟨m, kind, key, rfl⟩ <;> rfl
  have hrend : ∀ (n : Nat) e, (batchReview branch [o] [])[n]? = some e →
      Renders env.cr ((firstOpReview env.cr branch (Op.ofSpec o)).item (UInt8.ofNat n)) e := by
    intro n e he
    cases n with
    | zero =>
      cases he
      exact (rendersText_branch (cr := env.cr) hb).item "Operation"
    | succ n =>
      have hlt := (List.getElem?_eq_some_iff.mp he).1
      have hto : (UInt8.ofNat (n + 1)).toNat = n + 1 := by simp only [UInt8.toNat_ofNat']; omega
      have hne : UInt8.ofNat (n + 1) ≠ 0 := by intro h; rw [h] at hto; simp at hto
      have hsub : (UInt8.ofNat (n + 1) - 1).toNat = n := by
        rw [UInt8.toNat_sub_of_le _ _ (by rw [UInt8.le_iff_toNat_le, hto]; simp), hto]; rfl
      simp only [firstOpReview, if_neg hne, hsub]
      refine C57_operation_items env.cr o hv ?_ n e ?_
      · rw [← Op.uiItems_review]; omega
      · simpa [batchReview, opaqueReview] using he
  obtain ⟨fs, f1, f2, f3, v, s', ⟨r, rfl⟩, f4, f5, f6, f7⟩ := Dev.reviewed (cfg := cfg) hrun hinv hcmd hfam hsent.fit
    hsent.good hsent.last hup hev hrole hw.sized (w := firstOpReview env.cr branch (Op.ofSpec o)) (p := s.path)
    (fun s => rfl) (Q := fun v => ∃ r, v = .bakingSign (decide (ins ≠ 0x04)) digest r (Op.ofSpec o) (d1 ++ d2)) (by
      intro u u' ref hcomp
      have hwp : ∀ f, Dev.withPath { s with upl := u' } bip32MaxLength p2 (some k.path.serialize) f = f k :=
        Dev.withPath_ok hc hpath
      have hwk : ∀ f, Dev.withKey { s with upl := u' } .conditionsNotSatisfied .conditionsNotSatisfied f = f k :=
        Dev.withKey_ok (s := { s with upl := u' }) hk _ _
      unfold Dev.bakerSign
      rw [hwp, hwk, if_neg (by simp)]
      simp only [hd]
      rw [hmsg] at hd hcomp ⊢
      have hpre : Preamble.parse (0x03 :: (branch ++ (o.encode ++ tail))) =
        .ok (branch ++ (o.encode ++ tail), .operation) := rfl
      have ho := Opens.baking (h := decide (ins ≠ 0x04)) hcomp hc hpath hk hd hnew hnext hop
      simp only [hpre]
      refine ⟨_, ⟨_, rfl⟩, ho, ?_, fun b hb' => ?_⟩
      · unfold Dev.handleDelegation
        simp only [hnew, hnext]
        rcases hop with ⟨d, hd⟩ | ⟨d, hd⟩ <;> rw [hd] <;> rfl
      · obtain ⟨rem, rest, e1, -, -, e2⟩ := ho.viewer_baking
        cases e1
        rw [e2 _ _ hb']
        congr 1
        rw [← hb]
        exact List.take_left)
    (num := 8) (by simp only [firstOpReview, h8]; rfl) (by decide)
    (by
      intro i hi
      have : (8 : UInt8).toNat = 8 := rfl
      have hi' : i < (batchReview branch [o] []).length := by omega
      exact ((hrend i _ (List.getElem?_eq_getElem hi')).shown hw).mpr (hread _ (List.getElem_mem hi')))
    (by rcases hop with ⟨d, hd⟩ | ⟨d, hd⟩ <;> rw [hd] <;> rfl)
    env' hcr
  have hf : fs.length = (batchReview branch [o] []).length := by rw [f1, hlen, h8]; rfl
  refine ⟨readingScreens s.zui.display fs, read_fields hf f2 (batchReview_plain (by omega)) hrend, ?_, ?_⟩
  · rw [readAndApprove, List.dropLast_concat] at f3
    exact f3
  · have hk' : s'.idle.storedKey = some k := by
      unfold Dev.storedKey Dev.idle
      rw [f6]
      exact hk
    have hacc : (View.bakingSign (decide (ins ≠ 0x04)) digest r (Op.ofSpec o) (d1 ++ d2)).accept env' s'.idle =
        ⟨s'.idle, .ok (sigReply (decide (ins ≠ 0x04)) digest sig), some ⟨k.curve, k.path, digest, d1 ++ d2, sig⟩⟩ := by
      simp only [View.accept, Dev.bakingSign]
      rw [Dev.withKey_ok hk', hcr, hsig]
    have hh : decide (ins ≠ 0x04) = decide (ins ∈ hashInstructions) := by
      simp only [List.mem_cons, List.not_mem_nil, or_false] at hins
      rcases hins with rfl | rfl | rfl <;> decide
    rw [f7 _ (by rw [hacc]), hacc, hh]
    rfl

/-! ### Concrete cases -/

namespace Demo

/-- A new device with a page for uploads. -/
def newLarge : NewDevice := ⟨.large, List.replicate 8191 0⟩
def newSmall : NewDevice := ⟨.small, List.replicate 8191 0⟩

/-- The delegation, sent in three packets. -/
theorem delegation_sent (ins : UInt8) : Sent ins key delegation
    (ok [apdu ins 0 0 keyPath, apdu ins 1 0 (delegation.take 40)]) fine (apdu ins 0x81 0 (delegation.drop 40)) where
  ex := by
    refine ⟨0x81, 0, 0, delegation.take 40, delegation.drop 40, (List.take_append_drop _ _).symm, by decide, ?_,
      apdu_carries _ _ _ _ (by decide), by decide⟩
    refine ⟨by decide, apdu_carries _ _ _ _ (by decide), ?_⟩
    have e : delegation.take 40 = delegation.take 40 ++ [] := (List.append_nil _).symm
    rw [e]
    exact .cons (by decide) (apdu_carries _ _ _ _ (by decide)) .nil
  path := by decide
  fit := by decide
  flash := by simp [ok, fine]
  last := ⟨rfl, rfl⟩

theorem delegation_readable : ∀ e ∈ batchReview (List.replicate 32 5) [delegationOp] [], e.2.Readable := by
  intro e he
  simp only [batchReview, opaqueReview, delegationOp, Operation.review, List.flatMap_cons,
    List.flatMap_nil, List.append_nil, List.cons_append, List.nil_append, List.mem_cons, List.not_mem_nil,
    or_false] at he
  rcases he with rfl | rfl | rfl | rfl | rfl | rfl | rfl | rfl <;> simp [Shown.Readable]

theorem delegation_valid : delegationOp.Valid := by
  simp [delegationOp, Operation.Valid, Account.Valid, validOption]

set_option maxRecDepth 100000 in
/-- `C84_batch_signed_partial` on the larger display. -/
example : ∃ screens sig, UserRead crypto.hashes screens ("Fee", .tez 1) ∧
    SignedAfterReading walletApp (Dev.factory newLarge)
      (ok [apdu 0x0F 0 0 keyPath, apdu 0x0F 1 0 (delegation.take 40)]) fine (apdu 0x0F 0x81 0 (delegation.drop 40)) fine
      screens true ⟨.ed25519, key.path, hash 32 delegation, delegation, sig⟩ := by
  obtain ⟨screens, h1, h2⟩ := C84_batch_signed_partial walletApp newLarge (by decide +kernel) [] (by simp) _ rfl
    (by decide +kernel) 0x0F (by decide) key (List.replicate 32 5) (by decide) [delegationOp]
    (by simpa using delegation_valid) [] (fun _ _ h => by cases h) (by decide +kernel) delegation_readable delegation
    delegation_encode.symm _ fine _ (delegation_sent 0x0F) crypto_works fine rfl _ _ rfl rfl
  exact ⟨screens, _, h1 _ (by simp [batchReview, delegationOp, Operation.review]), h2⟩

set_option maxRecDepth 100000 in
/-- `C84_delegation_signed_partial` after a setup, on the small display. -/
example : ∃ screens sig, UserRead crypto.hashes screens ("Fee", .tez 1) ∧
    SignedAfterReading bakingApp ((Dev.factory newSmall).run bakingApp (setup 5)).1
      (ok [apdu 0x04 0 0 keyPath, apdu 0x04 1 0 (delegation.take 40)]) fine (apdu 0x04 0x81 0 (delegation.drop 40)) fine
      screens false ⟨.ed25519, key.path, hash 32 delegation, delegation, sig⟩ := by
  obtain ⟨screens, h1, h2⟩ := C84_delegation_signed_partial bakingApp rfl newSmall (by decide +kernel) (setup 5)
    (by decide +kernel) _ rfl (by decide +kernel) 0x04 (by decide) key (by decide +kernel) (List.replicate 32 5)
    (by decide) delegationOp delegation_valid (.inl ⟨_, _, rfl⟩) delegation_readable [] delegation
    (by have := delegation_encode.symm; simpa using this) _ fine _ (delegation_sent 0x04) crypto_works fine rfl _ _ rfl rfl
  exact ⟨screens, _, h1 _ (by simp [batchReview, delegationOp, Operation.review]), h2⟩

set_option maxRecDepth 100000 in
/-- The hypotheses of `C84_expression_signed`, for an expression that comes in one packet. -/
example : Sent 0x12 key [0x05, 1, 2] (ok [apdu 0x12 0 0 keyPath]) fine (apdu 0x12 0x81 0 [0x05, 1, 2]) where
  ex := ⟨0x81, 0, 0, [], [0x05, 1, 2], rfl, by decide, ⟨by decide, apdu_carries _ _ _ _ (by decide), .nil⟩,
    apdu_carries _ _ _ _ (by decide), by decide⟩
  path := by decide
  fit := by decide
  flash := by simp [ok, fine]
  last := ⟨rfl, rfl⟩

end Demo

end Tezos
