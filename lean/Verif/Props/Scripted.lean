import Verif.ZemuTests
import Verif.Props.Cursor
import Verif.Props.Served
/-
What the scripted users of the integration tests bring about: C110.
-/
namespace Tezos
open Spec

/-! ### Opening a review -/

/-- An upload that is given to `finish`, which opens the review `v` and looks like `w`. -/
theorem Dev.uploaded {cfg : Config} {s : Dev} (hrun : s.running = true) {o : Option (Session Accessor)}
    (hinv : UplInv s.upl o) {ins p1 p2 q2 : UInt8} {c : Cmd} {acc : Accessor}
    (hcmd : command cfg.build ins = some c) (hfam : familyOf cfg.build ins = some acc) {key d1 d2 : Bytes}
    (hfit : 1 + key.length + (d1 ++ d2).length ≤ 8191) {us : List (Env × Event)} {env : Env} {ev : Event}
    (hg : ∀ e ∈ us, Good e.1 e.2) (hge : env.copyF = .done ∧ env.appendF = .done)
    (hup : Uploading ins p2 key d1 (us.map Prod.snd)) (hev : Carries ev ins p1 q2 d2) (hr : role p1 = some .closing)
    (he : env.cr.Sized) {w : Viewer} {p : Option (Path × Curve)}
    {finish : UInt8 → Bytes → Bytes → MemRef → Dev → Res}
    (hexec : ∀ s : Dev, s.exec cfg env c p1 q2 (some d2) = s.cmdUpload env acc p1 q2 (some d2) finish)
    {Q : View → Prop}
    (hopen : ∀ u u' ref, Completes env { s with upl := u } acc p1 q2 (some d2) u' p2 key (d1 ++ d2) ref →
      ∃ v, Q v ∧ Opens env { s with upl := u } p1 q2 (some d2) c v p u' ∧
        finish p2 key (d1 ++ d2) ref { s with upl := u' } = (({ s with upl := u } : Dev).withUpload p u').show env v ∧
        ∀ b, SameMemory u'.buf b → v.viewer env.cr b = w)
    {num : UInt8} (hn : w.numItems = .ok num) (hpos : 0 < num.toNat)
    (hi : ∀ i < num.toNat, ∃ f, w.item (UInt8.ofNat i) = .ok f) :
    ∃ (v : View) (m : Moment), Q v ∧ m.Opens cfg v ∧ (m.next cfg).OnScreen ∧ m.env = env ∧ m.st.zui = s.zui ∧
      w = v.viewer env.cr (m.next cfg).upl.buf ∧ (m.next cfg).path = p ∧
      s.run cfg (us ++ [(env, ev)]) = (m.next cfg, (us.map fun _ => ⟨some [0x90, 0x00], none, none⟩) ++ [.quiet]) := by
  simp only [List.length_append] at hfit
  obtain ⟨u, hui, hrun'⟩ := hup.run hfam hrun hinv (by unfold uploadCapacity; omega) hg
  have hrun1 : ({ s with upl := u } : Dev).running = true := hrun
  obtain ⟨buf, hrec, h2, h3, hpl⟩ := hev.received (s := { s with upl := u }) hrun1 hcmd
  have hfeed : (Spec.feed (some ⟨acc, p2, key, d1⟩) ⟨acc, p1, q2, d2⟩).2 = some (p2, key, d1 ++ d2) := by
    simp only [Spec.feed, hr, true_and]
    rw [if_pos (by unfold uploadCapacity; omega)]
  obtain ⟨u', ref, hcomp⟩ := Completes.of_feed (env := env) (s := { s with upl := u }) hui hev.length hge.1 hge.2 hfeed
  obtain ⟨v, hq, ho, hfin, hview⟩ := hopen u u' ref hcomp
  have hview0 := hview u'.buf ⟨rfl, rfl⟩
  have hex : Dev.exec cfg env c p1 q2 (some d2) { s with upl := u } =
      { (({ s with upl := u } : Dev).withUpload p u').show env v with
        st := { ((({ s with upl := u } : Dev).withUpload p u').show env v).st with upl := u'.drop acc } } := by
    rw [hexec]
    simp only [Dev.cmdUpload, hcomp.eq]
    rw [hfin]
    simp only [Dev.show_upl]
    rfl
  rw [← h2, ← h3, ← hpl] at ho hex
  obtain ⟨hopen, hon, z, hstep⟩ := Dev.brings (u' := u'.drop acc) he hrec ho (by rw [hex]) (by rw [hex])
    (.inr ⟨_, rfl⟩) (by rw [hview0]; exact hn) hpos (by rw [hview0]; exact hi)
  have hack : acknowledged = ⟨some [0x90, 0x00], none, none⟩ := by decide
  refine ⟨v, ⟨{ s with upl := u }, env, ev, .quiet⟩, hq, hopen .quiet, hon, rfl, rfl, ?_, ?_, ?_⟩
  · rw [Moment.next, hstep, hview _ (SameMemory.drop acc u')]
  · rw [Moment.next, hstep]
  · rw [Moment.next, ← hack]
    refine Prod.ext ?_ ?_
    · rw [Dev.run_append, hrun']
      rfl
    · rw [Dev.run_append_out, hrun']
      simp only [Dev.run, hstep]

/-! ### A batch of operations -/

/-- The review of this batch of operations. -/
def batchViewer (cr : Crypto) (digest branch : Bytes) (os : List Operation) (rest : Bytes) : Viewer :=
  reviewOf cr digest (0x03 :: (branch ++ (os.flatMap Operation.encode ++ rest)))

/-- How many screens the review of this batch has before the approval. -/
def batchStops (d : Display) (cr : Crypto) (digest branch : Bytes) (os : List Operation) (rest : Bytes) : Nat :=
  stops d (batchViewer cr digest branch os rest) (UInt8.ofNat (batchReview branch os rest).length)

theorem batch_readable {cr : Crypto} (hw : cr.Works) (digest : Bytes) {branch : Bytes} (hb : branch.length = 32)
    {os : List Operation} (hv : ∀ o ∈ os, o.Valid) {rest : Bytes} (hr : IsOpaque rest)
    (hn : (batchReview branch os rest).length < 256) (hread : ∀ e ∈ batchReview branch os rest, e.2.Readable)
    (d : Display) : DisplayableOn d (batchViewer cr digest branch os rest)
      (UInt8.ofNat (batchReview branch os rest).length) := by
  have hrev := reviewOf_batch cr digest hb (os.flatMap Operation.encode ++ rest)
  obtain ⟨hnum, hrend⟩ := C57_review cr branch hb os hv rest hr hn
  have hp := parseOps_batch os hv rest hr
  have hlen := batchReview_length branch os rest
  have hto : (UInt8.ofNat (batchReview branch os rest).length).toNat = (batchReview branch os rest).length := by
    simp only [UInt8.toNat_ofNat']; omega
  have hpos : 0 < (batchReview branch os rest).length := by simp [batchReview]
  refine ⟨by rw [batchViewer, hrev]; exact hnum, by rw [hto]; exact hpos, ?_, fun _ => ?_⟩
  · intro i hi
    rw [hto] at hi
    rw [batchViewer, hrev]
    exact ((hrend i _ (List.getElem?_eq_getElem hi)).shown hw).mpr (hread _ (List.getElem_mem hi))
  · rw [batchViewer, hrev]
    show signOpItem _ _ _ _ = _
    rw [(C39_item_order cr branch _ _ hp (by rw [← hlen]; exact hn)).2 _ (by
      intro h
      rw [h] at hto
      simp at hto
      omega), hto, List.getElem?_eq_none_iff.mpr (by
        rw [allFields_length]
        unfold totalItems at hlen
        omega)]

/-- The upload of a batch brings its review to the display. -/
theorem Dev.batch_opens {cfg : Config} {s : Dev} (hrun : s.running = true) {o : Option (Session Accessor)}
    (hinv : UplInv s.upl o) {ins : UInt8} (hins : ins ∈ generalIns cfg.build) {k : PathAndCurve} {branch : Bytes}
    (hb : branch.length = 32) {os : List Operation} (hv : ∀ o ∈ os, o.Valid) {rest : Bytes} (hr : IsOpaque rest)
    (hn : (batchReview branch os rest).length < 256) (hread : ∀ e ∈ batchReview branch os rest, e.2.Readable)
    {us : List (Env × Event)} {env : Env} {ev : Event}
    (hsent : Sent ins k (0x03 :: (branch ++ (os.flatMap Operation.encode ++ rest))) us env ev) (hw : env.cr.Works)
    {digest : Bytes}
    (hd : env.cr.blake2b 32 (0x03 :: (branch ++ (os.flatMap Operation.encode ++ rest))) = some digest) :
    ∃ (v : View) (m : Moment), (∃ r, v = .sign (decide (ins ∈ hashInstructions)) digest r
        (0x03 :: (branch ++ (os.flatMap Operation.encode ++ rest)))) ∧
      m.Opens cfg v ∧ (m.next cfg).OnScreen ∧ m.env = env ∧ m.st.zui = s.zui ∧
      batchViewer env.cr digest branch os rest = v.viewer env.cr (m.next cfg).upl.buf ∧
      (m.next cfg).path = some (k.path, k.curve) ∧
      s.run cfg (us ++ [(env, ev)]) = (m.next cfg, (us.map fun _ => ⟨some [0x90, 0x00], none, none⟩) ++ [.quiet]) := by
  obtain ⟨hcmd, hfam⟩ := command_general hins
  obtain ⟨p1, p2, q2, d1, d2, hmsg, hc, hup, hev, hrole⟩ := hsent.ex
  have hread := batch_readable hw digest hb hv hr hn hread s.zui.display
  have hfit := hsent.fit
  obtain ⟨hk1, hk2⟩ := hsent.path
  have hpath : Path.read bip32MaxLength k.path.serialize = .ok k.path := by
    rw [Path.read_ok]
    exact ⟨hk1, hk2, by omega, rfl⟩
  rw [hmsg] at hd hfit
  rw [hmsg]
  refine Dev.uploaded (cfg := cfg) hrun hinv hcmd hfam hfit hsent.good hsent.last hup hev hrole hw.sized
    (finish := _) (fun s => rfl) ?_ hread.count hread.pos hread.items
  intro u u' ref hcomp
  have hwp : ∀ f, Dev.withPath { s with upl := u' } bip32MaxLength p2 (some k.path.serialize) f = f k :=
    Dev.withPath_ok hc hpath
  unfold Dev.startSign
  rw [hwp]
  simp only [hd]
  have hops : operationNew (branch ++ (os.flatMap Operation.encode ++ rest)) =
      .ok (branch, os.flatMap Operation.encode ++ rest) := by
    unfold operationNew
    rw [nTake_append' hb]
    rfl
  rw [← hmsg] at hd hcomp ⊢
  have hpre : Preamble.parse (0x03 :: (branch ++ (os.flatMap Operation.encode ++ rest))) =
      .ok (branch ++ (os.flatMap Operation.encode ++ rest), .operation) := rfl
  simp only [hpre, hops]
  have ho := Opens.operation (h := decide (ins ∈ hashInstructions)) hcomp hc hpath hd hops
  exact ⟨_, ⟨_, rfl⟩, ho, rfl, fun b hb => ho.viewer_sign hb env.cr⟩

/-- A call the packets of which are acknowledged up to the last, which is answered after some presses. -/
theorem Talk.pressed {ρ : Type} {cfg : Config} {s : Dev} {call : Client ρ} {r : ρ} {us : List (Env × Event)} {env : Env}
    {ev : Event} (hs : Sends call (us.map Prod.snd ++ [ev])) {bs : List (Env × Button)} {e : Env × Button} {a : Bytes}
    (hrun : (s.run cfg (us ++ (env, ev) :: presses (bs ++ [e]))).2.map Output.reply =
      (us.map fun _ => some [0x90, 0x00]) ++ none :: (bs.map (fun _ => none) ++ [some a]))
    (hr : call.after (us.map (fun _ => [0x90, 0x00]) ++ [a]) = some r) :
    Talk call (s.trace cfg (us ++ (env, ev) :: presses (bs ++ [e]))) r := by
  rw [Dev.trace_outputs, Dev.trace_append, List.map_append, List.map_append] at hrun
  rw [Dev.trace_append]
  obtain ⟨h1, h2⟩ := List.append_inj hrun (by simp [Dev.trace_length])
  have hev := Dev.trace_events cfg s us
  refine Talk.of_after (m := ⟨(s.run cfg us).1, env, ev, ((s.run cfg us).1.step cfg env ev).2⟩) (a := a) (by rw [hev]; exact hs)
    (fun y hy => ?_) ?_ ?_
  · have : y.out.reply ∈ ((s.trace cfg us).map Moment.out).map Output.reply :=
      List.mem_map_of_mem (List.mem_map_of_mem hy)
    rw [h1] at this
    obtain ⟨_, -, e⟩ := List.mem_map.mp this
    exact e.symm
  · rw [← hr]
    congr 1
    congr 1
    rw [List.map_const', List.map_const', Dev.trace_length]
  · intro ins p1 p2 data hc
    simp only [Dev.trace, List.map_cons, List.cons.injEq] at h2
    obtain ⟨h2, h3⟩ := h2
    have hp : presses (bs ++ [e]) = presses bs ++ [(e.1, e.2.event)] := by simp [presses]
    rw [hp] at h3 ⊢
    simp only [Dev.trace_append, List.map_append] at h3
    obtain ⟨h3, h4⟩ := List.append_inj h3 (by simp [Dev.trace_length, presses])
    simp only [Dev.trace, Dev.trace_append]
    refine .later hc h2 (fun y hy => ⟨?_, ?_⟩) ?_ ?_
    · have : y.ev ∈ (Dev.trace cfg ((s.run cfg us).1.step cfg env ev).1 (presses bs)).map Moment.ev :=
        List.mem_map_of_mem hy
      rw [Dev.trace_events] at this
      simp only [presses, List.map_map, List.mem_map, Function.comp] at this
      obtain ⟨x, -, hx⟩ := this
      rw [← hx]
      cases x.2 <;> rfl
    · have : y.out.reply ∈ ((Dev.trace cfg ((s.run cfg us).1.step cfg env ev).1 (presses bs)).map Moment.out).map
        Output.reply := List.mem_map_of_mem (List.mem_map_of_mem hy)
      rw [h3] at this
      obtain ⟨_, -, e⟩ := List.mem_map.mp this
      exact e.symm
    · show e.2.event.isButton = true
      cases e.2 <;> rfl
    · simp only [Dev.trace, List.map_cons, List.map_nil, List.cons.injEq, and_true] at h4
      exact h4

theorem presses_append (as bs : List (Env × Button)) : presses (as ++ bs) = presses as ++ presses bs := by
  simp [presses]

/-- **C110, signing.** Whatever was done before, and whatever buttons the user presses while the review of a batch of
operations is on the display, both buttons then do what the position says. At the approval, the call returns the digest and
the signature of the batch. At the rejection, the computer gets the status word 0x6986. Anywhere else, it gets nothing, and
the review is still pending. -/
theorem C110_batch (cfg : Config) (new : NewDevice) (hu : new.upload.length = uploadCapacity)
    (es : List (Env × Event)) (hes : ∀ e ∈ es, Good e.1 e.2) (s : Dev) (hs : s = ((Dev.factory new).run cfg es).1)
    (hrun : s.running = true) (js : Js) (hjs : js.ReadsDecimal) (path : Bytes) (curve : UInt8) (k : PathAndCurve)
    (hk : NamesKey path curve k) (branch : Bytes) (hb : branch.length = 32) (ops : List Operation)
    (hv : ∀ o ∈ ops, o.Valid) (rest : Bytes) (hr : IsOpaque rest) (hn : (batchReview branch ops rest).length < 256)
    (hread : ∀ e ∈ batchReview branch ops rest, e.2.Readable) (message : Bytes)
    (hmsg : message = branch ++ (ops.flatMap Operation.encode ++ rest)) (hfit : message.length ≤ 8172)
    (call : Client SignResponse) (hcall : call = signOperation js path curve message)
    (us : List (Env × Event)) (env : Env) (ev : Event) (hsent : Calls call us env ev) (hw : env.cr.Works)
    (digest sig : Bytes) (hd : env.cr.blake2b 32 (0x03 :: message) = some digest)
    (hsig : env.cr.sign k.curve k.path digest = some sig) (bs : List (Env × Button)) (hbs : ∀ e ∈ bs, e.1.cr = env.cr)
    (env' : Env) (hcr : env'.cr = env.cr) (n : Nat) (hst : n = batchStops s.zui.display env.cr digest branch ops rest)
    (p : Nat) (hp : place n (s.zui.display = .small ∧ s.zui.expert = true) (bs.map Prod.snd) = .at p) :
    (p = n → Talk call (s.trace cfg (us ++ (env, ev) :: presses (bs ++ [(env', .both)]))) ⟨0x9000, some (digest, sig)⟩) ∧
    (p = n + 1 → (s.run cfg (us ++ (env, ev) :: presses (bs ++ [(env', .both)]))).2.map Output.reply =
      (us.map fun _ => some [0x90, 0x00]) ++ none :: (bs.map (fun _ => none) ++ [some [0x69, 0x86]])) ∧
    (p < n → (s.run cfg (us ++ (env, ev) :: presses (bs ++ [(env', .both)]))).2.map Output.reply =
      (us.map fun _ => some [0x90, 0x00]) ++ none :: (bs.map (fun _ => none) ++ [none]) ∧
      (s.run cfg (us ++ (env, ev) :: presses (bs ++ [(env', .both)]))).1.view ≠ none) := by
  subst hst
  subst hcall
  subst hmsg
  obtain ⟨hse, haf⟩ := SigningRequest.sent (c := ⟨0x12, false, true, curve⟩) hjs hk hfit rfl rfl hsent
  have hins : (0x12 : UInt8) ∈ generalIns cfg.build := by cases cfg.build <;> simp [generalIns]
  have hinv := factory_session (cfg := cfg) hu hes
  rw [← hs] at hinv
  obtain ⟨v, m, ⟨r, hvr⟩, ho, hon, he, hz, hview, hpath, hopen⟩ :=
    Dev.batch_opens (cfg := cfg) hrun hinv hins hb hv hr hn hread hse hw hd
  have hs1 : m.env.cr.Sized := by rw [he]; exact hw.sized
  have hR := batch_readable hw digest hb hv hr hn hread s.zui.display
  have cursor := fun (bs : List (Env × Button)) (hbs : ∀ e ∈ bs, e.1.cr = env.cr) (p : Nat) hp =>
    C110_cursor cfg m v s.zui.display (by rw [hz]) hs1 ho hon env (by rw [he]) _ hview _ hR bs hbs p hp
  have happ : ∀ xs, us ++ (env, ev) :: xs = (us ++ [(env, ev)]) ++ xs := by intro xs; simp
  have hout : ∀ xs, (s.run cfg (us ++ (env, ev) :: xs)).2.map Output.reply =
      (us.map fun _ => some [0x90, 0x00]) ++ none :: ((m.next cfg).run cfg xs).2.map Output.reply := by
    intro xs
    rw [happ, Dev.run_append_out, hopen]
    simp [Output.quiet]
  obtain ⟨z, h1, -, h3, h4⟩ := cursor bs hbs p (by rw [hz]; exact hp)
  have hlast : ∀ xs, ((m.next cfg).run cfg (presses bs ++ [(env', xs)])).2.map Output.reply = bs.map (fun _ => none) ++
      [(({ m.next cfg with zui := z } : Dev).step cfg env' xs).2.reply] := by
    intro xs
    rw [Dev.run_append_out, h1]
    simp [Dev.run, Output.quiet]
  refine ⟨fun hpn => ?_, fun hpn => ?_, fun hpn => ?_⟩
  · have hA := h3.mpr hpn
    have hacc : v.accept env' ({ m.next cfg with zui := z } : Dev).idle =
        ⟨{ ({ m.next cfg with zui := z } : Dev).idle with path := none }, .ok (sigReply true digest sig),
          some ⟨k.curve, k.path, digest, 0x03 :: (branch ++ (ops.flatMap Operation.encode ++ rest)), sig⟩⟩ := by
      have hh : decide ((0x12 : UInt8) ∈ hashInstructions) = true := by decide
      rw [hvr, hh]
      simp only [View.accept, Dev.idle, hpath, hcr, hsig]
    refine Talk.pressed hsent.packets (a := digest ++ sig ++ [0x90, 0x00]) ?_ (haf digest sig (hw.sized.blake2b hd))
    rw [presses_append, hout]
    show _ ++ none :: List.map _ ((m.next cfg).run cfg (presses bs ++ [(env', .both)])).2 = _
    rw [hlast, hA.answer (cfg := cfg) env' (by rw [hacc])]
    rfl
  · have hB := h4.mpr hpn
    rw [presses_append, hout]
    show _ ++ none :: List.map _ ((m.next cfg).run cfg (presses bs ++ [(env', .both)])).2 = _
    rw [hlast, (C44_rejection cfg env' _ _ v hB).1]
  · have hp' : place (batchStops s.zui.display env.cr digest branch ops rest)
        (s.zui.display = .small ∧ s.zui.expert = true) ((bs ++ [(env', Button.both)]).map Prod.snd) =
        .at (if s.zui.display = .small ∧ s.zui.expert = true then
          batchStops s.zui.display env.cr digest branch ops rest else p) := by
      rw [List.map_append, place_append _ _ hp]
      simp only [List.map_cons, List.map_nil, List.foldl_cons, List.foldl_nil, Place.press]
      rw [if_neg (Nat.ne_of_lt hpn), if_neg (by
        intro h
        rw [h] at hpn
        exact absurd hpn (by simp))]
      simp only [decide_eq_true_eq]
    obtain ⟨z', g1, -, -, -⟩ := cursor (bs ++ [(env', .both)]) (by
      intro e h
      rcases List.mem_append.mp h with h | h
      · exact hbs e h
      · rw [List.mem_singleton.mp h]; exact hcr) _ (by rw [hz]; exact hp')
    constructor
    · rw [hout, g1]
      simp [Output.quiet]
    · rw [happ, Dev.run_append, hopen]
      simp only
      rw [g1]
      simp only [ho.view]
      simp

/-- On the larger display, there are as many screens before the approval as the batch has items, and one. -/
theorem C110_stops_large {cr : Crypto} (hw : cr.Works) (digest branch : Bytes) (hb : branch.length = 32)
    (ops : List Operation) (hv : ∀ o ∈ ops, o.Valid) (rest : Bytes) (hr : IsOpaque rest)
    (hn : (batchReview branch ops rest).length < 256) (hread : ∀ e ∈ batchReview branch ops rest, e.2.Readable) :
    batchStops .large cr digest branch ops rest = (batchReview branch ops rest).length + 1 := by
  have h := batch_readable hw digest hb hv hr hn hread .large
  have hto : (UInt8.ofNat (batchReview branch ops rest).length).toNat = (batchReview branch ops rest).length := by
    simp only [UInt8.toNat_ofNat']; omega
  unfold batchStops stops screensOf
  simp only [List.length_cons, List.length_map]
  rw [shownItems_length h.items, hto]

/-- **C110, the tests.** The test that signs a test vector or a sample operation gets its signature if, and only if, there
are fewer than thirty screens before the approval. With thirty or more, it has not got to the approval when it presses both
buttons: nothing is answered, and the test waits for an answer that does not come. -/
theorem C110_tests (cfg : Config) (new : NewDevice) (hu : new.upload.length = uploadCapacity)
    (es : List (Env × Event)) (hes : ∀ e ∈ es, Good e.1 e.2) (s : Dev) (hs : s = ((Dev.factory new).run cfg es).1)
    (hrun : s.running = true) (js : Js) (hjs : js.ReadsDecimal) (path : Bytes) (curve : UInt8) (k : PathAndCurve)
    (hk : NamesKey path curve k) (branch : Bytes) (hb : branch.length = 32) (ops : List Operation)
    (hv : ∀ o ∈ ops, o.Valid) (rest : Bytes) (hr : IsOpaque rest) (hn : (batchReview branch ops rest).length < 256)
    (hread : ∀ e ∈ batchReview branch ops rest, e.2.Readable) (message : Bytes)
    (hmsg : message = branch ++ (ops.flatMap Operation.encode ++ rest)) (hfit : message.length ≤ 8172)
    (call : Client SignResponse) (hcall : call = signOperation js path curve message)
    (us : List (Env × Event)) (env : Env) (ev : Event) (hsent : Calls call us env ev) (hw : env.cr.Works)
    (digest sig : Bytes) (hd : env.cr.blake2b 32 (0x03 :: message) = some digest)
    (hsig : env.cr.sign k.curve k.path digest = some sig) (env' : Env) (hcr : env'.cr = env.cr) (n : Nat)
    (hst : n = batchStops s.zui.display env.cr digest branch ops rest) (all : List (Env × Event))
    (hall : all = us ++ (env, ev) :: presses (toTheEnd.map fun b => (env', b))) :
    (n < 30 → Talk call (s.trace cfg all) ⟨0x9000, some (digest, sig)⟩) ∧
    (30 ≤ n → (s.run cfg all).2.map Output.reply = (us.map fun _ => some [0x90, 0x00]) ++ List.replicate 33 none ∧
      (s.run cfg all).1.view ≠ none) := by
  have hsplit : (toTheEnd.map fun b => (env', b)) =
      ((List.replicate 30 Button.right ++ [Button.left]).map fun b => (env', b)) ++ [(env', .both)] := by
    simp [toTheEnd]
  have hbs : (((List.replicate 30 Button.right ++ [Button.left]).map fun b => (env', b)).map Prod.snd) =
      List.replicate 30 Button.right ++ [.left] := by simp
  rw [hsplit] at hall
  subst hall
  obtain ⟨h1, -, h3⟩ := C110_batch cfg new hu es hes s hs hrun js hjs path curve k hk branch hb ops hv rest hr hn hread
    message hmsg hfit call hcall us env ev hsent hw digest sig hd hsig
    ((List.replicate 30 Button.right ++ [Button.left]).map fun b => (env', b))
    (by
      intro e he
      obtain ⟨b, -, rfl⟩ := List.mem_map.mp he
      exact hcr) env' hcr n hst _ (by rw [hbs]; exact place_rights_left _ _ 30)
  refine ⟨fun h => h1 (by omega), fun h => ?_⟩
  obtain ⟨h4, h5⟩ := h3 (by omega)
  exact ⟨h4, h5⟩

/-- **C110, the tests that count.** A test that presses the right button `k` times and then both buttons signs the batch
exactly if `k` is the number of screens before the approval; if it counted one more or further, the batch is rejected; if it
counted less, nothing is answered. -/
theorem C110_counted (cfg : Config) (new : NewDevice) (hu : new.upload.length = uploadCapacity)
    (es : List (Env × Event)) (hes : ∀ e ∈ es, Good e.1 e.2) (s : Dev) (hs : s = ((Dev.factory new).run cfg es).1)
    (hrun : s.running = true) (js : Js) (hjs : js.ReadsDecimal) (path : Bytes) (curve : UInt8) (k : PathAndCurve)
    (hk : NamesKey path curve k) (branch : Bytes) (hb : branch.length = 32) (ops : List Operation)
    (hv : ∀ o ∈ ops, o.Valid) (rest : Bytes) (hr : IsOpaque rest) (hn : (batchReview branch ops rest).length < 256)
    (hread : ∀ e ∈ batchReview branch ops rest, e.2.Readable) (message : Bytes)
    (hmsg : message = branch ++ (ops.flatMap Operation.encode ++ rest)) (hfit : message.length ≤ 8172)
    (call : Client SignResponse) (hcall : call = signOperation js path curve message)
    (us : List (Env × Event)) (env : Env) (ev : Event) (hsent : Calls call us env ev) (hw : env.cr.Works)
    (digest sig : Bytes) (hd : env.cr.blake2b 32 (0x03 :: message) = some digest)
    (hsig : env.cr.sign k.curve k.path digest = some sig) (env' : Env) (hcr : env'.cr = env.cr) (n : Nat)
    (hst : n = batchStops s.zui.display env.cr digest branch ops rest) (c : Nat) (all : List (Env × Event))
    (hall : all = us ++ (env, ev) :: presses ((navigate c).map fun b => (env', b))) :
    (c = n → Talk call (s.trace cfg all) ⟨0x9000, some (digest, sig)⟩) ∧
    (n < c → (s.run cfg all).2.map Output.reply =
      (us.map fun _ => some [0x90, 0x00]) ++ List.replicate (c + 1) none ++ [some [0x69, 0x86]]) ∧
    (c < n → (s.run cfg all).2.map Output.reply = (us.map fun _ => some [0x90, 0x00]) ++ List.replicate (c + 2) none ∧
      (s.run cfg all).1.view ≠ none) := by
  have hsplit : ((navigate c).map fun b => (env', b)) =
      ((List.replicate c Button.right).map fun b => (env', b)) ++ [(env', .both)] := by simp [navigate]
  have hbs : (((List.replicate c Button.right).map fun b => (env', b)).map Prod.snd) = List.replicate c Button.right := by
    simp
  rw [hsplit] at hall
  subst hall
  obtain ⟨h1, h2, h3⟩ := C110_batch cfg new hu es hes s hs hrun js hjs path curve k hk branch hb ops hv rest hr hn hread
    message hmsg hfit call hcall us env ev hsent hw digest sig hd hsig
    ((List.replicate c Button.right).map fun b => (env', b))
    (by
      intro e he
      obtain ⟨b, -, rfl⟩ := List.mem_map.mp he
      exact hcr) env' hcr n hst _ (by rw [hbs]; exact place_rights _ _ c)
  refine ⟨fun h => h1 (by omega), fun h => ?_, fun h => ?_⟩
  · rw [h2 (by omega)]
    simp [List.replicate_succ]
  · obtain ⟨h4, h5⟩ := h3 (by omega)
    refine ⟨?_, h5⟩
    rw [h4, List.replicate_succ, List.replicate_succ']
    simp

end Tezos

namespace Tezos
open Spec

namespace Demo

/-- The script of the tests in the environment `fine`. -/
def script : List (Env × Event) := presses (toTheEnd.map fun b => (fine, b))

set_option maxRecDepth 100000 in
/-- `C110_tests` on the larger display: the delegation is signed by the script. -/
example : ∃ sig, Talk delegationCall ((Dev.factory newLarge).trace walletApp
    (ok [apdu 0x12 0 0 keyPath] ++ (fine, apdu 0x12 2 0 delegation) :: script))
      ⟨0x9000, some (hash 32 delegation, sig)⟩ := by
  have e : (0x03 : UInt8) :: delegation.drop 1 = delegation := by decide
  have e' := delegation_encode
  rw [← e, List.cons.injEq] at e'
  have h := C110_tests walletApp newLarge (by decide +kernel) [] (by simp) _ rfl
    (by decide +kernel) js js_decimal pathText 0 key key_named (List.replicate 32 5) (by decide) [delegationOp]
    (by simpa using delegation_valid) [] (fun _ _ h => by cases h) (by decide +kernel) delegation_readable
    (delegation.drop 1) e'.2.symm (by decide) delegationCall rfl _ fine _ delegationCall_calls crypto_works
    _ _ rfl rfl fine rfl _ rfl _ rfl
  have hst := C110_stops_large crypto_works (hash 32 delegation) (List.replicate 32 5) (by decide) [delegationOp]
    (by simpa using delegation_valid) [] (fun _ _ h => by cases h) (by decide +kernel) delegation_readable
  rw [e] at h
  refine ⟨_, h.1 ?_⟩
  exact lt_of_eq_of_lt hst (by decide +kernel)

/-- Four delegations in one message. -/
def fourDelegations : Bytes := delegation ++ delegation.drop 33 ++ delegation.drop 33 ++ delegation.drop 33

set_option maxRecDepth 100000 in
/-- The other side of `C110_tests`, on both displays: four delegations in one message have more than thirty screens, and
the script gets no answer. Neither does a test that counted one screen too few; one that counted one too many gets the
batch rejected. -/
example :
    ((Dev.factory newLarge).run walletApp (ok [apdu 0x12 0 0 keyPath, apdu 0x12 2 0 fourDelegations] ++ script)).2.map
      Output.reply = some [0x90, 0x00] :: List.replicate 33 none ∧
    ((Dev.factory newSmall).run walletApp (ok [apdu 0x12 0 0 keyPath, apdu 0x12 2 0 fourDelegations] ++ script)).2.map
      Output.reply = some [0x90, 0x00] :: List.replicate 33 none ∧
    ((Dev.factory newLarge).run walletApp (ok [apdu 0x12 0 0 keyPath, apdu 0x12 2 0 delegation] ++
      presses ((navigate 8).map fun b => (fine, b)))).2.map Output.reply = some [0x90, 0x00] :: List.replicate 10 none ∧
    ((Dev.factory newLarge).run walletApp (ok [apdu 0x12 0 0 keyPath, apdu 0x12 2 0 delegation] ++
      presses ((navigate 10).map fun b => (fine, b)))).2.map Output.reply =
        some [0x90, 0x00] :: List.replicate 11 none ++ [some [0x69, 0x86]] := by
  refine ⟨?_, ?_, ?_, ?_⟩ <;> decide +kernel

set_option maxRecDepth 100000 in
/-- `C110_cursor` with all three buttons: both buttons at an item, two steps forward and one back, and on to the approval;
in expert mode, on the smaller display, both buttons at the first page lead to the approval. -/
example :
    place 9 false [.both, .right, .right, .left, .right] = .at 2 ∧ place 14 true [.both] = .at 14 ∧
    (((Dev.factory newSmall).run walletApp (ok [.expert, apdu 0x12 0 0 keyPath, apdu 0x12 2 0 delegation, .both])).1.zui.screen)
      = approveScreen ∧
    (((Dev.factory newSmall).run walletApp (ok [apdu 0x12 0 0 keyPath, apdu 0x12 2 0 delegation, .both])).1.zui.screen)
      ≠ approveScreen := by
  refine ⟨?_, ?_, ?_, ?_⟩ <;> decide +kernel

end Demo
end Tezos
