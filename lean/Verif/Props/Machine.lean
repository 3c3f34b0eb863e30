import Verif.Props.Answers
import Verif.Props.Manage
import Verif.Talk
import Verif.Spec.Machine
/-
C112: as long as nothing fails, the app is the machine of Spec/Machine.lean.
-/
set_option linter.unusedSimpArgs false
set_option linter.unusedVariables false
namespace Tezos
open Spec

/-- What of an event can be seen at the ports: the APDU and whether it is answered at once, or whether a button press is
answered with success. Neither the state of the device nor the signature is looked at. -/
def Moment.sight (m : Moment) : Sight :=
  match m.ev with
  | .relaunch => .started
  | .apdu buf rx =>
    if 5 ≤ rx ∧ rx ≤ buf.length ∧ buf[0]? = some 0x80 then
      .request (buf.getD 1 0) (buf.getD 2 0) (buf.getD 3 0) (slice buf 5 (buf.getD 4 0).toNat) m.out.reply.isNone
    else .nothing
  | _ =>
    match m.out.reply with
    | some r => if statusOf r = 0x9000 then .agreed else .nothing
    | none => .nothing

/-! ### Whether the app runs -/

theorem Res.deliver_runs {r : Res} {b : Bool} (h : r.st.running = b) :
    r.deliver.1.running = (b && r.deliver.2.fault.isNone) := by
  unfold Res.deliver
  split <;> simp [h]

theorem Dev.show_running (env : Env) (v : View) (s : Dev) : (s.show env v).st.running = s.running := by
  unfold Dev.show
  dsimp only
  split
  · rfl
  · rfl
  · cases v <;> rfl
  · rfl
  · rfl

theorem Dev.resetHwm_running (env : Env) (l : UInt32) (s : Dev) : (s.resetHwm env l).st.running = s.running := by
  cases s.resetHwm_cases env l with
  | main _ hst _ => rw [hst]
  | test _ _ hst _ => rw [hst]
  | chain _ _ hst _ => rw [hst]
  | init _ _ _ hst _ => rw [hst]

theorem Dev.exec_running (cfg : Config) (env : Env) (c : Cmd) (p1 p2 : UInt8) (payload : Option Bytes) (s : Dev) :
    (s.exec cfg env c p1 p2 payload).st.running = s.running := by
  cases s.exec_cases cfg env c p1 p2 payload with
  | still p u hs _ => rw [hs.1]; rfl
  | opened v p u u' ho hout hs hst _ => rw [hst]; exact (s.withUpload p u).show_running env v
  | reset p hc hp hl hr => rw [hr]; exact s.resetHwm_running ..
  | auto hh u u' q2 first m ref k digest hc hu hcv hp hk hd hmg hout hs hst =>
    rw [hst]
    rcases (s.withUpload s.path u).autoSign_cases env hh digest m (specDecide m)
      (fun _ _ => specDecide_error) with hfa | ⟨b, w, hb, hdec, hfa | ⟨_, _, _, _, _, hre⟩⟩
    · simp only [hfa.1]; rfl
    · simp only [hfa.1]; rfl
    · simp only [hre]; rfl

theorem View.accept_running (env : Env) (v : View) (s : Dev) : (v.accept env s).st.running = s.running := by
  cases v with
  | sign hh d p m =>
    cases View.accept_sign env hh d p m s with
    | bad hst _ => rw [hst]
    | done _ _ _ _ _ hr => rw [hr]
  | bakingSign hh d b o m =>
    rcases s.bakingSign_cases env hh d m with hf | ⟨k, sig, _, _, hre⟩
    · exact congrArg Dev.running hf.1
    · exact congrArg (fun r => r.st.running) hre
  | addr a k w => rw [(View.accept_addr env a k w s).1]
  | query k a w => rw [(View.accept_query env k a w s).1]
  | authorize k a =>
    cases View.accept_authorize env k a s with
    | none hst hb => rw [hst]
    | key _ hst hb => rw [hst]
    | done hw hst _ _ => rw [hst]
  | deauthorize a =>
    cases View.accept_deauthorize env a s with
    | key _ hst hb => rw [hst]
    | done hw hst _ _ => rw [hst]
  | setup k a m t ch =>
    cases View.accept_setup env k a m t ch s with
    | none hst hb => rw [hst]
    | key _ hst hb => rw [hst]
    | main hk _ hst _ => rw [hst]
    | test hk _ _ hst _ => rw [hst]
    | chain hk _ _ hst _ => rw [hst]

theorem Dev.reject_running (s : Dev) : s.reject.1.running = s.running ∧ s.reject.2.fault = none := by
  unfold Dev.reject
  dsimp only
  split
  · exact ⟨rfl, rfl⟩
  · rename_i v hv
    cases v <;> exact ⟨rfl, rfl⟩

theorem Dev.redraw_running (u : Upd) (s : Dev) :
    (s.redraw u).1.running = (s.running && (s.redraw u).2.fault.isNone) := by
  cases u with
  | rejected z =>
    obtain ⟨h1, h2⟩ := ({ s with zui := z } : Dev).reject_running
    simp only [Dev.redraw, h1, h2]
    simp
  | _ => simp [Dev.redraw, Output.quiet]

theorem Dev.onError_running (c : Bool) (f : XError → XError) (s : Dev) :
    (s.onError c f).1.running = (s.running && (s.onError c f).2.fault.isNone) := by
  unfold Dev.onError Dev.acceptError
  dsimp only
  repeat' split
  all_goals simp [Output.quiet]

theorem Dev.pressBoth_running (env : Env) (s : Dev) :
    (s.pressBoth env).1.running = (s.running && (s.pressBoth env).2.fault.isNone) := by
  have hr : ∀ r : Dev × Output, r.1.running = (s.running && r.2.fault.isNone) →
      (if r.1.running = true ∧ r.1.zui.jumps = true then
        ((r.1.redraw (r.1.zui.expertJump (r.1.viewer env))).1,
          (⟨r.2.reply <|> (r.1.redraw (r.1.zui.expertJump (r.1.viewer env))).2.reply, r.2.sig,
            r.2.fault <|> (r.1.redraw (r.1.zui.expertJump (r.1.viewer env))).2.fault⟩ : Output))
        else r).1.running = (s.running && (if r.1.running = true ∧ r.1.zui.jumps = true then
        ((r.1.redraw (r.1.zui.expertJump (r.1.viewer env))).1,
          (⟨r.2.reply <|> (r.1.redraw (r.1.zui.expertJump (r.1.viewer env))).2.reply, r.2.sig,
            r.2.fault <|> (r.1.redraw (r.1.zui.expertJump (r.1.viewer env))).2.fault⟩ : Output))
        else r).2.fault.isNone) := by
    intro r h
    split
    · rename_i hc
      dsimp only
      rw [Dev.redraw_running, h, Bool.and_assoc]
      congr 1
      cases r.2.fault <;> simp
    · exact h
  unfold Dev.pressBoth
  dsimp only
  split
  · apply hr
    unfold Dev.approve
    dsimp only
    split
    · simp [Output.quiet]
    · rename_i v hv
      exact Res.deliver_runs (View.accept_running ..)
  · apply hr
    obtain ⟨h1, h2⟩ := s.reject_running
    simp [h1, h2]
  · apply hr
    simp [Output.quiet]

/-- The app stops when an event says so, and only then. -/
theorem Dev.step_running {cfg : Config} {env : Env} {ev : Event} {s : Dev} (hev : ev ≠ .relaunch) :
    (s.step cfg env ev).1.running = (s.running && (s.step cfg env ev).2.fault.isNone) := by
  cases ev with
  | relaunch => exact absurd rfl hev
  | apdu buf rx =>
    simp only [Dev.step]
    split
    · apply Res.deliver_runs
      unfold Dev.dispatch
      repeat' split
      all_goals first | rfl | exact Dev.exec_running ..
    · simp [Output.quiet]
  | expert =>
    simp only [Dev.step]
    split <;> simp [Output.quiet]
  | _ =>
    simp only [Dev.step]
    split
    · split
      · first | exact Dev.redraw_running _ _ | exact Dev.pressBoth_running _ _
      · exact Dev.onError_running _ _ _
      · simp [Output.quiet]
    · simp [Output.quiet]

/-! ### The watermark -/

theorem Dev.lastItem_congr {s s' : Dev} (h : s'.main.read = s.main.read) : s'.lastItem = s.lastItem := by
  unfold Dev.lastItem
  rw [h]

theorem hwmBytes_item (l : UInt32) : (WaterMark.decode (hwmBytes l)).item = levelMark l.toNat := by
  unfold hwmBytes
  rw [WaterMark.decode_encode]
  rfl

theorem Dev.lastItem_hwm {s : Dev} {l : UInt32} (h : s.main.read = .ok (hwmBytes l)) :
    s.lastItem = some (levelMark l.toNat) := by
  unfold Dev.lastItem
  rw [h, ← hwmBytes_item]

theorem command_reset (b : Build) (ins : UInt8) :
    command b ins = some .reset ↔ b = .baking ∧ ins = 0x06 := by
  have : ∀ ins : UInt8, command .baking ins = some .reset ↔ ins = 0x06 := forall_u8 (by decide +kernel)
  have hw : ∀ ins : UInt8, command .wallet ins ≠ some .reset := forall_u8 (by decide +kernel)
  cases b
  all_goals simp [this, hw]

/-- What the main watermark is after a request answered with `a`. -/
def markAfter (b : Build) (mark : Option Item) (ins : UInt8) (data : Bytes) : Spec.Answer → Option Item
  | .signed msg => consensusItem msg
  | _ => if b = .baking ∧ ins = 0x06 ∧ 4 ≤ data.length then some (levelMark (u32At data 0)) else mark

theorem markAfter_unsigned {b : Build} {mark : Option Item} {ins : UInt8} {data : Bytes} {a : Spec.Answer} {s s' : Dev}
    {out : Output} (h : Fits s s' out a) (hs : out.sig = none) : markAfter b mark ins data a =
      if b = .baking ∧ ins = 0x06 ∧ 4 ≤ data.length then some (levelMark (u32At data 0)) else mark := by
  cases a with
  | signed msg =>
    obtain ⟨d, x, rfl, -⟩ := h
    cases hs
  | _ => rfl

section
variable {cfg : Config} {env : Env} {s : Dev} {n : Nat}

theorem Dev.Takes.reset_main (ht : s.Takes n) (hn : n + 1 < 2 ^ 64) (hv : Serves env) {d : Bytes} (hd : 4 ≤ d.length) :
    (s.cmdReset env (some d)).deliver.2.sig = none ∧
      (s.cmdReset env (some d)).deliver.1.main.read = .ok (hwmBytes (u32OfBe (d.take 4))) := by
  obtain ⟨c, hc⟩ := ht.mark .main
  have w1 := ht.solid.main.takes (hwmBytes (u32OfBe (d.take 4)))
  have hr : ∀ s' : Dev, s'.main = (s.main.write .done (hwmBytes (u32OfBe (d.take 4)))).1 →
      s'.main.read = .ok (hwmBytes (u32OfBe (d.take 4))) := fun s' hs' =>
    (Store.Holds.written hc hn (WaterMark.encode_length _) w1 hs').1
  have w2 := ht.solid.test.takes (hwmBytes (u32OfBe (d.take 4)))
  have w3 := ht.solid.chain.takes (chainIdEncode mainnetChainId)
  unfold hwmBytes at w1 w2
  unfold Dev.cmdReset
  dsimp only
  rw [if_neg (by omega)]
  simp only [Dev.resetHwm, Dev.writeMain, Dev.writeTest, Dev.writeChain, hv.main, hv.test, hv.chain, w1, w2,
    Dev.afterWrite]
  split
  · rename_i hr
    exact absurd hr ht.solid.chain.read
  · rw [w3]
    exact ⟨rfl, hr _ rfl⟩
  · exact ⟨rfl, hr _ rfl⟩

/-- The watermark after a command. -/
theorem Dev.Takes.exec_mark (ht : s.Takes n) (hn : n + 1 < 2 ^ 64) (hv : Serves env) {c : Cmd} {ins p1 p2 : UInt8}
    {data : Bytes} (hc : command cfg.build ins = some c) {a : Spec.Answer}
    (hfit : (s.exec cfg env c p1 p2 (some data)).Fits s a) :
    (s.exec cfg env c p1 p2 (some data)).deliver.1.lastItem = markAfter cfg.build s.lastItem ins data a := by
  have hfl := (s.exec cfg env c p1 p2 (some data)).deliver_flash
  by_cases hreset : c = .reset
  · subst hreset
    obtain ⟨hb, rfl⟩ := (command_reset _ _).mp hc
    by_cases hd : 4 ≤ data.length
    · obtain ⟨h1, h2⟩ := ht.reset_main hn hv hd
      rw [markAfter_unsigned hfit h1, if_pos ⟨hb, rfl, hd⟩]
      show (s.cmdReset env (some data)).deliver.1.lastItem = _
      rw [Dev.lastItem_hwm h2, u32OfBe_toNat (by simp; omega)]
      rfl
    · have hex : s.exec cfg env .reset p1 p2 (some data) = s.fail .wrongLength := by
        show s.cmdReset env (some data) = _
        unfold Dev.cmdReset
        dsimp only
        rw [if_pos (by omega)]
      rw [hex] at hfit ⊢
      rw [markAfter_unsigned hfit rfl, if_neg (fun h => hd h.2.2)]
      rfl
  · have hno : ¬ (cfg.build = .baking ∧ ins = 0x06 ∧ 4 ≤ data.length) := by
      rintro ⟨h1, h2, -⟩
      rw [(command_reset _ _).mpr ⟨h1, h2⟩] at hc
      exact hreset (Option.some.inj hc).symm
    have hun : (s.exec cfg env c p1 p2 (some data)).sig = none →
        (s.exec cfg env c p1 p2 (some data)).st.main = s.main →
        (s.exec cfg env c p1 p2 (some data)).deliver.1.lastItem = markAfter cfg.build s.lastItem ins data a := by
      intro h1 h2
      rw [markAfter_unsigned hfit (Res.deliver_none h1), if_neg hno]
      exact Dev.lastItem_congr (by rw [hfl.main, h2])
    cases s.exec_cases cfg env c p1 p2 (some data) with
    | still p u hs _ => exact hun hs.2.1 (by rw [hs.1]; rfl)
    | opened v p u u' ho hout hs hst _ =>
      exact hun hs (by rw [hst]; exact ((s.withUpload p u).show_flash env v).main)
    | reset p hc' hp hl hr => exact absurd hc' hreset
    | auto hh u u' q2 first m ref k digest hc' hu hcv hp hk hd hmg hout hs hst =>
      rcases (s.withUpload s.path u).autoSign_cases env hh digest m (specDecide m)
        (fun _ _ => specDecide_error) with hfa | ⟨b, w, hb, hdec, hfa⟩
      · exact hun (by rw [hs]; exact hfa.2.1) (by rw [hst, hfa.1]; rfl)
      · obtain ⟨it, hi, hl, hlt, rfl⟩ := specDecide_ok hdec
        obtain ⟨sig, hsig⟩ := Option.isSome_iff_exists.mp (hv.sign k.curve k.path digest)
        obtain ⟨h1, h2⟩ := Dev.autoSign_ok (s := s.withUpload s.path u) (h := hh) hk hi hb hl hlt hv.main hsig
        rcases hfa with hfa | ⟨hw, k', sig', hk', hsg, hre⟩
        · exact absurd h1 (hfa.bad.not_ok _)
        · obtain ⟨c', hc'⟩ := ht.mark .main
          have hmain : (s.exec cfg env c p1 p2 (some data)).deliver.1.main.read = .ok (WaterMark.ofItem it).encode := by
            refine (Store.Holds.written hc' hn (WaterMark.encode_length (WaterMark.ofItem it))
              (ht.solid.main.takes _) ?_).1
            rw [hfl.main, hst, hre]
            show (s.main.write env.mainF _).1 = _
            rw [hv.main]
            rfl
          have hdel : (s.exec cfg env c p1 p2 (some data)).deliver.2.sig = some ⟨k.curve, k.path, digest, m, sig⟩ := by
            unfold Res.deliver
            rw [hout, h1, hs, h2]
          have ha : a = .signed m := by
            cases a with
            | signed msg =>
              obtain ⟨d, x, he, hx⟩ := hfit
              rw [he] at hdel
              cases hdel
              rw [← hx]
            | served => obtain ⟨d, he⟩ := hfit; rw [he] at hdel; cases hdel
            | refused w => rw [hfit.out] at hdel; cases hdel
            | asked => rcases hfit.out with ⟨he, -⟩ | ⟨he, -⟩ <;> rw [he] at hdel <;> cases hdel
            | askedIf p =>
              rcases hfit with ⟨-, hfit⟩ | ⟨-, hfit⟩
              · rcases hfit.out with ⟨he, -⟩ | ⟨he, -⟩ <;> rw [he] at hdel <;> cases hdel
              · rw [hfit.out] at hdel; cases hdel
            | declined => rcases hfit with hfit | hfit <;> rw [hfit.out] at hdel <;> cases hdel
            | stops => rw [show _ = _ from hfit] at hdel; cases hdel
          subst ha
          show _ = consensusItem m
          unfold Dev.lastItem
          rw [hmain, hi]
          dsimp only
          rw [WaterMark.decode_encode, WaterMark.item_ofItem hi]

/-! ### Approvals -/

/-- What an approval leads to when nothing fails. -/
theorem Dev.Takes.approved (ht : s.Takes n) (hn : n + 1 < 2 ^ 64) (hv : Serves env) {ev : Event} {v : View}
    (ha : Approves s ev v) {o : Option PathAndCurve} (ho : v.keyChange = some o) :
    (∃ d, (s.step cfg env ev).2.reply = some (d ++ [0x90, 0x00])) ∧ (s.step cfg env ev).1.storedKey = o ∧
      (s.step cfg env ev).1.lastItem =
        match v with
        | .setup _ _ l _ _ => some (levelMark l.toNat)
        | _ => s.lastItem := by
  obtain ⟨hfl, hs, hr⟩ := ha.step (cfg := cfg) env
  obtain ⟨ck, hck⟩ := ht.key
  obtain ⟨cm, hcm⟩ := ht.mark .main
  have hok := ht.ok v ha.view
  have h9 : statusWord .success = [0x90, 0x00] := by decide
  have hwk := ht.solid.key.takes
  have hread : ∀ o, (∀ k, o = some k → 1 ≤ k.path.length ∧ k.path.length ≤ 10) →
      (v.accept env s.idle).st.key = (s.key.write .done (keyBytes o)).1 →
      (s.step cfg env ev).1.storedKey = o := fun o ho hk =>
    (Dev.key_written hck hn (hwk _) ho (hfl.key.trans hk)).1
  cases v with
  | authorize k a =>
    cases ho
    obtain ⟨key, hkey⟩ := Option.isSome_iff_exists.mp (hv.publicKey k.curve k.path)
    have hw : (s.key.write .done k.encode).2 = .ok := hwk _
    have hacc : (View.authorize k a).accept env s.idle =
        ({ s.idle with key := (s.key.write .done k.encode).1 } : Dev).ok (keyReply key) := by
      have hw' : (s.idle.key.write .done k.encode).2 = .ok := hw
      simp only [View.accept, hkey, Dev.storeKey, hv.key, hw', Dev.afterWrite]
      rfl
    refine ⟨⟨keyReply key, by rw [hr, hacc]; simp only [Dev.ok, Res.deliver, h9]⟩,
      hread _ (fun k' e => ?_) (by rw [hacc]; rfl),
      Dev.lastItem_congr (by rw [hfl.main, hacc]; rfl)⟩
    cases e
    exact hok
  | deauthorize a =>
    cases ho
    have hw : (s.key.write .done PathAndCurve.empty).2 = .ok := hwk _
    have hacc : (View.deauthorize a).accept env s.idle =
        ({ s.idle with key := (s.key.write .done PathAndCurve.empty).1 } : Dev).ok [] := by
      have hw' : (s.idle.key.write .done PathAndCurve.empty).2 = .ok := hw
      simp only [View.accept, Dev.removeKey, hv.key, hw', Dev.afterWrite]
      rfl
    refine ⟨⟨[], by rw [hr, hacc]; simp only [Dev.ok, Res.deliver, h9]⟩, hread _ (fun k' e => ?_) (by rw [hacc]; rfl),
      Dev.lastItem_congr (by rw [hfl.main, hacc]; rfl)⟩
    cases e
  | setup k a l t ch =>
    cases ho
    obtain ⟨key, hkey⟩ := Option.isSome_iff_exists.mp (hv.publicKey k.curve k.path)
    have hw : (s.idle.key.write .done k.encode).2 = .ok := hwk _
    have hw1 : (s.idle.main.write .done (WaterMark.reset l false).encode).2 = .ok := ht.solid.main.takes _
    have hw2 : (s.idle.test.write .done (WaterMark.reset t false).encode).2 = .ok := ht.solid.test.takes _
    have hw3 : (s.idle.chain.write .done (chainIdEncode ch.toU32)).2 = .ok := ht.solid.chain.takes _
    have hacc : (View.setup k a l t ch).accept env s.idle =
        ({ s.idle with
            key := (s.key.write .done k.encode).1
            main := (s.main.write .done (hwmBytes l)).1
            test := (s.test.write .done (hwmBytes t)).1
            chain := (s.chain.write .done (chainIdEncode ch.toU32)).1 } : Dev).ok (keyReply key) := by
      simp only [View.accept, hkey, Dev.storeKey, Dev.writeMain, Dev.writeTest, Dev.writeChain, hv.key, hv.main, hv.test,
        hv.chain, hw, hw1, hw2, hw3, Dev.afterWrite]
      rfl
    refine ⟨⟨keyReply key, by rw [hr, hacc]; simp only [Dev.ok, Res.deliver, h9]⟩,
      hread _ (fun k' e => ?_) (by rw [hacc]; rfl),
      Dev.lastItem_hwm ?_⟩
    · cases e
      exact hok
    · refine (Store.Holds.written hcm hn (WaterMark.encode_length _) (ht.solid.main.takes _) ?_).1
      rw [hfl.main, hacc]
      rfl
  | _ => cases ho

end

/-! ### Requests in any APDU -/

/-- The length given with an APDU does not matter beyond being in range: the app goes by the length in the header. -/
theorem sight_carries {buf : Bytes} (hf : buf.length = 260) (h0 : buf[0]? = some 0x80) :
    Carries (.apdu buf (5 + (buf.getD 4 0).toNat)) (buf.getD 1 0) (buf.getD 2 0) (buf.getD 3 0)
      (slice buf 5 (buf.getD 4 0).toNat) := by
  have hlt := (buf.getD 4 0).toNat_lt
  have hlen : (slice buf 5 (buf.getD 4 0).toNat).length = (buf.getD 4 0).toNat := by
    simp only [slice, List.length_take, List.length_drop]; omega
  refine ⟨buf.drop (5 + (buf.getD 4 0).toNat), ?_, ?_⟩
  · rw [hlen]
    congr 1
    match buf, hf, h0 with
    | a :: b :: c :: d :: e :: rest, hf, h0 =>
      simp only [List.getElem?_cons_zero, Option.some.injEq] at h0
      subst h0
      simp only [List.getD, slice, List.getElem?_cons_succ, List.getElem?_cons_zero, Option.getD_some, List.drop_succ_cons,
        List.drop_zero, List.cons_append, List.nil_append, List.append_assoc, UInt8.ofNat_toNat]
      rw [Nat.add_comm 5, List.drop_succ_cons, List.drop_succ_cons, List.drop_succ_cons, List.drop_succ_cons,
        List.drop_succ_cons, List.take_append_drop]
  · rw [hlen]
    simp only [List.length_drop]
    omega

theorem Dev.step_rx {cfg : Config} {env : Env} {s : Dev} {buf : Bytes} {rx rx' : Nat} (h : 5 ≤ rx ∧ rx ≤ buf.length)
    (h' : 5 ≤ rx' ∧ rx' ≤ buf.length) : s.step cfg env (.apdu buf rx) = s.step cfg env (.apdu buf rx') := by
  simp only [Dev.step, Dev.dispatch]
  rw [if_neg (c := buf.length < 5 ∨ rx < 5 ∨ buf.length < rx) (by omega),
    if_neg (c := buf.length < 5 ∨ rx' < 5 ∨ buf.length < rx') (by omega)]

theorem signingFamily_eq (b : Build) (ins : UInt8) : signingFamily b ins = familyOf b ins := by
  have : ∀ b, ∀ ins : UInt8, signingFamily b ins = familyOf b ins := fun b =>
    forall_u8 (by cases b <;> decide +kernel)
  exact this b ins

/-! ### The machine and the device -/

/-- What a review asks the user for. -/
def View.question : View → Question
  | .authorize k _ => .authorize (curveCode k.curve, UInt8.ofNat k.path.length :: k.path.flatMap be32)
  | .deauthorize _ => .deauthorize
  | .setup k _ l _ _ => .setup (curveCode k.curve, UInt8.ofNat k.path.length :: k.path.flatMap be32) l.toNat
  | _ => .other

/-- The registers are as the device is. -/
structure Dev.Kept (s : Dev) (o : Option (Session Accessor)) (r : Registers) : Prop where
  on : s.running = r.on
  key : s.keyName = r.key
  mark : s.lastItem = r.mark
  sess : o = r.sess
  question : s.running = true → ∀ v, s.view = some v → v.question = r.question

theorem Serves.kind {env : Env} {ev : Event} (h : Serves env) (hev : ev.Full) : Kind env ev where
  sized := h.works.sized
  main := by rw [h.main]; trivial
  test := by rw [h.test]; trivial
  chain := by rw [h.chain]; trivial
  key := by rw [h.key]; trivial
  copy j := by rw [h.copy]; simp
  append j := by rw [h.append]; simp
  full := hev

theorem Serves.good {env : Env} {ev : Event} (h : Serves env) (hev : ev.Full) : Good env ev := ⟨h.copy, h.append, hev⟩

/-- A request that opens a review asks for what the review asks. -/
theorem Opens.question {env : Env} {s : Dev} {b : Build} {ins p1 p2 : UInt8} {data : Bytes} {c : Cmd} {v : View}
    {p : Option (Path × Curve)} {u : Upl} (hc : command b ins = some c)
    (h : Opens env s p1 p2 (some data) c v p u) : v.question = questionOf ins p2 data := by
  have h1 : ∀ ins : UInt8, command b ins = some .authorize → ins ∈ [0x01, 0xA1] :=
    forall_u8 (by cases b <;> decide +kernel)
  have h2 : ∀ ins : UInt8, command b ins = some .deauthorize → ins ∉ [0x01, 0xA1] ∧ ins ∈ [0x0C, 0xAC] :=
    forall_u8 (by cases b <;> decide +kernel)
  have h3 : ∀ ins : UInt8, command b ins = some .setup → ins = 0x0A := forall_u8 (by cases b <;> decide +kernel)
  have h4 : ∀ ins : UInt8, command b ins = none ∨ command b ins = some .authorize ∨
      command b ins = some .deauthorize ∨ command b ins = some .setup ∨
      (ins ∉ [0x01, 0xA1] ∧ ins ∉ [0x0C, 0xAC] ∧ ins ≠ 0x0A) := forall_u8 (by cases b <;> decide +kernel)
  replace h1 := h1 ins
  replace h2 := h2 ins
  replace h3 := h3 ins
  replace h4 := h4 ins
  unfold questionOf
  cases h with
  | authorize _ hcv hp hr _ =>
    cases hp
    rw [if_pos (h1 hc), View.question, curveCode_of hcv, (Path.read_ok.mp hr).2.2.2]
  | deauthorize _ _ _ => rw [if_neg (h2 hc).1, if_pos (h2 hc).2]; rfl
  | setup hcv hp hl hn hr ha =>
    cases hp
    rw [h3 hc, if_neg (by decide), if_neg (by decide), if_pos rfl]
    rw [View.question, curveCode_of hcv, (Path.read_ok.mp hr).2.2.2, u32OfBe_toNat (by simp [slice]; omega)]
    rfl
  | addr hcmd _ _ _ _ _ =>
    have : ins ∉ [0x01, 0xA1] ∧ ins ∉ [0x0C, 0xAC] ∧ ins ≠ 0x0A := by
      rw [hc] at h4
      rcases hcmd with rfl | ⟨rfl, -⟩ <;> simpa using h4
    rw [if_neg this.1, if_neg this.2.1, if_neg this.2.2]
    rfl
  | _ =>
    have : ins ∉ [0x01, 0xA1] ∧ ins ∉ [0x0C, 0xAC] ∧ ins ≠ 0x0A := by
      rw [hc] at h4
      simpa using h4
    rw [if_neg this.1, if_neg this.2.1, if_neg this.2.2]
    rfl

theorem Fits.fault {s s' : Dev} {out : Output} {a : Spec.Answer} (h : Fits s s' out a) :
    out.fault.isNone = a.goesOn := by
  cases a with
  | signed msg => obtain ⟨d, x, rfl, -⟩ := h; rfl
  | served => obtain ⟨d, rfl⟩ := h; rfl
  | refused w => rw [h.out]; rfl
  | asked => rcases h.out with ⟨he, -⟩ | ⟨he, -⟩ <;> rw [he] <;> rfl
  | askedIf p =>
    rcases h with ⟨-, h⟩ | ⟨-, h⟩
    · rcases h.out with ⟨he, -⟩ | ⟨he, -⟩ <;> rw [he] <;> rfl
    · rw [h.out]; rfl
  | declined => rcases h with h | h <;> rw [h.out] <;> rfl
  | stops => rw [show out = _ from h]; rfl

/-- The pending review after a request. -/
theorem Dev.request_question {cfg : Config} {env : Env} {s : Dev} {buf : Bytes} {rx : Nat} (hf : buf.length = 260)
    {q : Question} (hq : ∀ v, s.view = some v → v.question = q)
    (hr' : (s.step cfg env (.apdu buf rx)).1.running = true) (v : View)
    (hv : (s.step cfg env (.apdu buf rx)).1.view = some v) :
    v.question = if (s.step cfg env (.apdu buf rx)).2.reply.isNone then
      questionOf (buf.getD 1 0) (buf.getD 3 0) (slice buf 5 (buf.getD 4 0).toNat) else q := by
  have hopen : ∀ w, OpensAt cfg env s (.apdu buf rx) w (s.step cfg env (.apdu buf rx)).1 →
      w.question = questionOf (buf.getD 1 0) (buf.getD 3 0) (slice buf 5 (buf.getD 4 0).toNat) := by
    intro w hw
    obtain ⟨buf', rx', c, p, u, hrec, ho, -⟩ := hw.ex
    obtain ⟨rfl, rfl⟩ : buf = buf' ∧ rx = rx' := by have := hrec.ev; cases this; exact ⟨rfl, rfl⟩
    obtain ⟨ins, hi, hc⟩ := hrec.cmd
    have h1 : buf.getD 1 0 = ins := by rw [List.getD_eq_getElem?_getD, hi]; rfl
    rw [apduPayload_full hf] at ho
    rw [h1]
    exact ho.question hc
  cases hrep : (s.step cfg env (.apdu buf rx)).2.reply with
  | none =>
    rcases Dev.apdu_silent hrep with ⟨w, hw⟩ | h
    · have := hw.view
      rw [hv] at this
      cases this
      exact hopen _ hw
    · rw [h] at hr'
      cases hr'
  | some rep =>
    rcases s.step_view cfg env (.apdu buf rx) with h | h | ⟨w, hw⟩
    · rw [hv] at h
      exact hq v h.symm
    · rw [hv] at h
      cases h
    · have := hw.quiet.1
      rw [hrep] at this
      cases this

section
variable {cfg : Config} {env : Env} {ev : Event} {s : Dev} {n : Nat} {o : Option (Session Accessor)} {r : Registers}

theorem Dev.Kept.off (h : s.Kept o r) (hrun : s.running ≠ true) (hev : ev ≠ .relaunch) :
    (s.step cfg env ev).1.Kept (sessionStep cfg o ⟨s, env, ev, (s.step cfg env ev).2⟩)
      (r.next cfg.build (Moment.sight ⟨s, env, ev, (s.step cfg env ev).2⟩)) := by
  have hon : r.on = false := by rw [← h.on]; simpa using hrun
  have hse : sessionStep cfg o ⟨s, env, ev, (s.step cfg env ev).2⟩ = o := by
    unfold sessionStep
    rw [if_neg hev, if_neg hrun]
  have hne : r.next cfg.build (Moment.sight ⟨s, env, ev, (s.step cfg env ev).2⟩) = r := by
    rw [Dev.step_off hrun hev]
    cases ev with
    | relaunch => exact absurd rfl hev
    | apdu buf rx =>
      simp only [Moment.sight]
      split
      · simp [Registers.next, hon]
      · rfl
    | _ => rfl
  rw [hse, hne, Dev.step_off hrun hev]
  exact h

theorem Dev.Kept.relaunched (h : s.Kept o r) (ht : s.Takes n) :
    (s.step cfg env .relaunch).1.Kept (sessionStep cfg o ⟨s, env, .relaunch, (s.step cfg env .relaunch).2⟩)
      (r.next cfg.build (Moment.sight ⟨s, env, .relaunch, (s.step cfg env .relaunch).2⟩)) where
  on := rfl
  key := by
    obtain ⟨c, hc⟩ := ht.key
    show s.relaunch.keyName = r.key
    rw [← h.key]
    unfold Dev.keyName
    rw [Store.Holds1.storedKey (s := s.relaunch) hc.relaunch, Store.Holds1.storedKey (s := s) hc]
  mark := by
    obtain ⟨c, hc⟩ := ht.mark .main
    show s.relaunch.lastItem = r.mark
    rw [← h.mark]
    refine Dev.lastItem_congr ?_
    have hc : s.main.Holds n c := hc
    rw [hc.read_eq]
    exact hc.relaunch.read_eq
  sess := rfl
  question _ v hv := by cases hv

theorem Dev.Kept.request (h : s.Kept o r) (ht : s.Takes n) (hs : s.Sane) (hi : UplInv s.upl o) (hn : n + 1 < 2 ^ 64)
    (hv : Serves env) (hrun : s.running = true) {buf : Bytes} {rx : Nat} (hf : buf.length = 260) :
    (s.step cfg env (.apdu buf rx)).1.Kept
        (sessionStep cfg o ⟨s, env, .apdu buf rx, (s.step cfg env (.apdu buf rx)).2⟩)
        (r.next cfg.build (Moment.sight ⟨s, env, .apdu buf rx, (s.step cfg env (.apdu buf rx)).2⟩)) ∧
      (5 ≤ rx ∧ rx ≤ buf.length ∧ buf[0]? = some 0x80 →
        Fits s (s.step cfg env (.apdu buf rx)).1 (s.step cfg env (.apdu buf rx)).2
          (r.answer cfg.build (buf.getD 1 0) (buf.getD 2 0) (buf.getD 3 0) (slice buf 5 (buf.getD 4 0).toNat))) := by
  have hon : r.on = true := by rw [← h.on]; exact hrun
  have hlt := (buf.getD 4 0).toNat_lt
  by_cases hwf : 5 ≤ rx ∧ rx ≤ buf.length ∧ buf[0]? = some 0x80
  · have hsight : Moment.sight ⟨s, env, .apdu buf rx, (s.step cfg env (.apdu buf rx)).2⟩ = .request (buf.getD 1 0)
        (buf.getD 2 0) (buf.getD 3 0) (slice buf 5 (buf.getD 4 0).toNat) (s.step cfg env (.apdu buf rx)).2.reply.isNone := by
      simp only [Moment.sight]
      rw [if_pos hwf]
    have hcar := sight_carries hf hwf.2.2
    have hrx := Dev.step_rx (cfg := cfg) (env := env) (s := s) (buf := buf) (rx := rx)
      (rx' := 5 + (buf.getD 4 0).toNat) ⟨hwf.1, hwf.2.1⟩ (by omega)
    have hfit := hs.step_fits (cfg := cfg) hrun hi hv hcar
    rw [← hrx, h.key, h.mark, h.sess] at hfit
    refine ⟨?_, fun _ => hfit⟩
    rw [hsight]
    generalize ha : answer cfg.build r.key r.mark r.sess (buf.getD 1 0) (buf.getD 2 0) (buf.getD 3 0)
      (slice buf 5 (buf.getD 4 0).toNat) = a at hfit
    have hnext : ∀ late, r.next cfg.build (.request (buf.getD 1 0) (buf.getD 2 0) (buf.getD 3 0)
        (slice buf 5 (buf.getD 4 0).toNat) late) = r.request cfg.build (buf.getD 1 0) (buf.getD 2 0) (buf.getD 3 0)
        (slice buf 5 (buf.getD 4 0).toNat) late a := by
      intro late
      simp only [Registers.next, hon, if_true, Registers.answer, ha]
    rw [hnext]
    have hmark : (s.step cfg env (.apdu buf rx)).1.lastItem =
        markAfter cfg.build s.lastItem (buf.getD 1 0) (slice buf 5 (buf.getD 4 0).toNat) a := by
      cases hc : command cfg.build (buf.getD 1 0) with
      | none =>
        rcases s.apdu_cases cfg env buf rx with ⟨h1, h2⟩ | ⟨c, hrec, -⟩
        · rw [markAfter_unsigned hfit h2, if_neg, h1]
          rintro ⟨hb, hi, -⟩
          rw [(command_reset _ _).mpr ⟨hb, hi⟩] at hc
          cases hc
        · obtain ⟨ins, hi, hc'⟩ := hrec.cmd
          rw [List.getD_eq_getElem?_getD, hi] at hc
          rw [show (some ins).getD 0 = ins from rfl, hc'] at hc
          cases hc
      | some c =>
        rw [hrx, hcar.step hrun hc] at hfit ⊢
        exact ht.exec_mark hn hv hc hfit
    have hkey : (s.step cfg env (.apdu buf rx)).1.storedKey = s.storedKey := by
      rcases s.apdu_cases cfg env buf rx with ⟨h1, -⟩ | ⟨c, -, h1⟩
      · rw [h1]
      · rw [h1]
        unfold Dev.storedKey
        rw [(Res.deliver_flash _).key, Dev.exec_key]
    have hrn : (s.step cfg env (.apdu buf rx)).1.running = a.goesOn := by
      rw [Dev.step_running (by simp), hrun, hfit.fault, Bool.true_and]
    refine ⟨hrn, ?_, ?_, ?_, fun hr' v hv' => ?_⟩
    · rw [show Registers.key (Registers.request ..) = r.key from rfl, ← h.key]
      unfold Dev.keyName
      rw [hkey]
    · rw [hmark, h.mark]
      cases a <;> rfl
    · unfold sessionStep
      rw [if_neg (by simp), if_pos hrun]
      have h1 : buf[1]? = some (buf.getD 1 0) := by
        rw [List.getD_eq_getElem?_getD, List.getElem?_eq_getElem (by omega)]
        rfl
      simp only [Event.packet, Registers.request, signingFamily_eq, ← h.sess]
      rw [if_pos hwf, h1, Option.bind_some]
      cases familyOf cfg.build (buf.getD 1 0) <;> rfl
    · exact Dev.request_question hf (h.question hrun) hr' v hv'
  · refine ⟨?_, fun hwf' => absurd hwf' hwf⟩
    have hsight : Moment.sight ⟨s, env, .apdu buf rx, (s.step cfg env (.apdu buf rx)).2⟩ = .nothing := by
      simp only [Moment.sight]
      rw [if_neg hwf]
    have hst : (s.step cfg env (.apdu buf rx)).1 = s := by
      rcases s.apdu_cases cfg env buf rx with ⟨h, -⟩ | ⟨c, hrec, -⟩
      · exact h
      · exact absurd ⟨hrec.len.1, hrec.len.2, hrec.cla⟩ hwf
    have hse : sessionStep cfg o ⟨s, env, .apdu buf rx, (s.step cfg env (.apdu buf rx)).2⟩ = o := by
      unfold sessionStep
      rw [if_neg (by simp), if_pos hrun]
      simp only [Event.packet]
      rw [if_neg hwf]
    rw [hsight, hst, hse]
    exact h

/-- A button press is seen as an approval only if one is answered with success. -/
theorem Moment.sight_button {m : Moment} (hb : m.ev.isButton = true) (hne : m.ev ≠ .relaunch) :
    m.sight = match m.out.reply with
      | some r => if statusOf r = 0x9000 then .agreed else .nothing
      | none => .nothing := by
  obtain ⟨st, env, ev, out⟩ := m
  cases ev with
  | apdu buf rx => cases hb
  | relaunch => exact absurd rfl hne
  | _ => rfl

theorem Dev.Kept.button (h : s.Kept o r) (ht : s.Takes n) (hs : s.Sturdy o) (hn : n + 1 < 2 ^ 64) (hv : Serves env)
    (hrun : s.running = true) (hb : ev.isButton = true) (hne : ev ≠ .relaunch) (hev : ev.Full) :
    (s.step cfg env ev).1.Kept (sessionStep cfg o ⟨s, env, ev, (s.step cfg env ev).2⟩)
      (r.next cfg.build (Moment.sight ⟨s, env, ev, (s.step cfg env ev).2⟩)) := by
  have hon : r.on = true := by rw [← h.on]; exact hrun
  have hpk : ev.packet cfg.build = none := Event.packet_button hb
  have hse : sessionStep cfg o ⟨s, env, ev, (s.step cfg env ev).2⟩ = o := by
    unfold sessionStep
    rw [if_neg hne, if_pos hrun]
    simp only [hpk]
  have hfault : (s.step cfg env ev).2.fault = none := by
    cases hf : (s.step cfg env ev).2.fault with
    | none => rfl
    | some f =>
      rcases (hs.ends (cfg := cfg) (hv.firm hev)).1 f hf with ⟨-, hc⟩ | ⟨-, k, _, _, _, hk, -⟩
      · exact absurd hc hv.uncut
      · rw [hpk] at hk
        cases hk
  have hrn : (s.step cfg env ev).1.running = true := by rw [Dev.step_running hne, hrun, hfault]; rfl
  have hview : ∀ v, (s.step cfg env ev).1.view = some v → s.view = some v := by
    intro v hw
    rcases s.step_view cfg env ev with h1 | h1 | ⟨w, h1⟩
    · rw [← h1]; exact hw
    · rw [h1] at hw; cases hw
    · obtain ⟨buf', rx', c, p, u, hrec, -⟩ := h1.ex
      have := hrec.ev
      subst this
      cases hb
  have hq : ∀ v, (s.step cfg env ev).1.view = some v → v.question = r.question :=
    fun v hw => h.question hrun v (hview v hw)
  rw [hse, Moment.sight_button hb hne]
  dsimp only
  by_cases hap : ∃ v, Approves s ev v
  · obtain ⟨v, ha⟩ := hap
    have hqv := h.question hrun v ha.view
    cases hkc : v.keyChange with
    | some k =>
      obtain ⟨⟨d, hrep⟩, hkey, hmark⟩ := ht.approved (cfg := cfg) hn hv ha hkc
      rw [hrep]
      dsimp only
      rw [if_pos (by rw [statusOf_append]; rfl)]
      have hkn : (s.step cfg env ev).1.keyName =
          k.map fun k => (curveCode k.curve, UInt8.ofNat k.path.length :: k.path.flatMap be32) := by
        unfold Dev.keyName
        rw [hkey]
      cases v with
      | authorize k' a =>
        cases hkc
        simp only [Registers.next, Registers.agree, ← hqv, View.question]
        exact ⟨hrn.trans hon.symm, hkn, hmark.trans h.mark, h.sess, fun _ v hw => hq v hw ▸ hqv.symm ▸ rfl⟩
      | deauthorize a =>
        cases hkc
        simp only [Registers.next, Registers.agree, ← hqv, View.question]
        exact ⟨hrn.trans hon.symm, hkn, hmark.trans h.mark, h.sess, fun _ v hw => hq v hw ▸ hqv.symm ▸ rfl⟩
      | setup k' a l t ch =>
        cases hkc
        simp only [Registers.next, Registers.agree, ← hqv, View.question]
        exact ⟨hrn.trans hon.symm, hkn, hmark, h.sess, fun _ v hw => hq v hw ▸ hqv.symm ▸ rfl⟩
      | _ => cases hkc
    | none =>
      have hother : r.question = .other := by
        rw [← hqv]
        cases v with
        | authorize => cases hkc
        | deauthorize => cases hkc
        | setup => cases hkc
        | _ => rfl
      obtain ⟨hfl, -, -⟩ := ha.step (cfg := cfg) env
      have hsame : ∀ sg, sg = Sight.agreed ∨ sg = .nothing → r.next cfg.build sg = r := by
        rintro sg (rfl | rfl)
        · simp only [Registers.next, Registers.agree, hother]
        · rfl
      rw [hsame _ (by split <;> [split <;> simp; simp])]
      refine ⟨hrn.trans hon.symm, ?_, ?_, h.sess, fun _ => hq⟩
      · rw [← h.key]
        unfold Dev.keyName Dev.storedKey
        rw [hfl.key, View.accept_key_same env v s.idle hkc]
        rfl
      · rw [← h.mark]
        refine Dev.lastItem_congr ?_
        rw [hfl.main, View.accept_main env v s.idle (by rintro k a m t ch rfl; cases hkc)]
        rfl
  · have hno : (match (s.step cfg env ev).2.reply with
        | some r => if statusOf r = 0x9000 then Sight.agreed else .nothing
        | none => .nothing) = .nothing := by
      split
      · rename_i rep hrep
        rw [if_neg]
        intro h9
        obtain ⟨v, ha, -⟩ := Dev.button_success hb hrep h9
        exact hap ⟨v, ha⟩
      · rfl
    rw [hno]
    have hfl : SameFlash s (s.step cfg env ev).1 := by
      cases s.step_cases cfg env ev with
      | still h _ => exact h
      | relaunch _ he _ => exact absurd he hne
      | accept v ha _ _ _ => exact absurd ⟨v, ha⟩ hap
      | command buf rx c hr _ =>
        have := hr.ev
        subst this
        cases hb
    refine ⟨hrn.trans hon.symm, ?_, ?_, h.sess, fun _ => hq⟩
    · rw [show r.next cfg.build .nothing = r from rfl, ← h.key]
      unfold Dev.keyName Dev.storedKey
      rw [hfl.key]
    · rw [show r.next cfg.build .nothing = r from rfl, ← h.mark]
      exact Dev.lastItem_congr (by rw [hfl.main])

theorem Dev.Kept.step (h : s.Kept o r) (ht : s.Takes n) (hsa : s.Sane) (hs : s.Sturdy o) (hn : n + 1 < 2 ^ 64)
    (hv : Serves env) (hev : ev.Full) :
    (s.step cfg env ev).1.Kept (sessionStep cfg o ⟨s, env, ev, (s.step cfg env ev).2⟩)
      (r.next cfg.build (Moment.sight ⟨s, env, ev, (s.step cfg env ev).2⟩)) := by
  by_cases hne : ev = .relaunch
  · subst hne
    exact h.relaunched ht
  by_cases hrun : s.running = true
  · cases hb : ev.isButton with
    | true => exact h.button ht hs hn hv hrun hb hne hev
    | false =>
      cases ev with
      | apdu buf rx => exact (h.request ht hsa (hs.session hrun) hn hv hrun hev).1
      | _ => cases hb
  · exact h.off hrun hne

end

theorem history_kept {cfg : Config} {new : NewDevice} (hu : new.upload.length = uploadCapacity)
    (es : List (Env × Event)) (hes : ∀ e ∈ es, Serves e.1 ∧ e.2.Full) (hlen : es.length < 2 ^ 64) :
    ((Dev.factory new).run cfg es).1.Kept (sessionIn cfg ((Dev.factory new).trace cfg es))
      (registers cfg.build (((Dev.factory new).trace cfg es).map Moment.sight)) := by
  induction es using list_snoc_induction with
  | nil =>
    refine ⟨rfl, ?_, ?_, rfl, fun _ v hv => by cases hv⟩
    · show (Dev.factory new).keyName = none
      unfold Dev.keyName
      rw [Store.Holds1.storedKey (s := Dev.factory new) (n := 0) (c := .blank) Store.Holds1.fresh]
      rfl
    · show (Dev.factory new).lastItem = none
      have h : (Dev.factory new).main.read = _ :=
        Store.Holds.read_eq (n := 0) (c := .blank) (Store.Holds.fresh (by omega))
      unfold Dev.lastItem
      rw [h]
      rfl
  | snoc es e ih =>
    have hes' : ∀ e ∈ es, Serves e.1 ∧ e.2.Full := fun x hx => hes x (by simp [hx])
    have he := hes e (by simp)
    have hl : es.length < 2 ^ 64 := by simp at hlen; omega
    have hk := ih hes' hl
    have ht := Dev.Takes.of_history (cfg := cfg) hu (fun x hx => (hes' x hx).1.kind (hes' x hx).2) hl
    have hsa := Dev.Sane.of_history (cfg := cfg) hu (fun x hx => (hes' x hx).1.kind (hes' x hx).2) hl
    have hst := (Dev.Sturdy.factory hu).run (cfg := cfg) fun x hx => (hes' x hx).1.firm (hes' x hx).2
    have := hk.step (cfg := cfg) (ev := e.2) ht hsa hst (by simpa using hlen) he.1 he.2
    rw [Dev.run_append, Dev.trace_append]
    simp only [sessionIn, registers, List.map_append, List.foldl_append]
    exact this

/-! ### C112 -/

section
variable (cfg : Config) (new : NewDevice) (hu : new.upload.length = uploadCapacity) (es : List (Env × Event))
  (hes : ∀ e ∈ es, Serves e.1 ∧ e.2.Full) (hlen : es.length < 2 ^ 64) (past rest : List Moment) (m : Moment)
  (h : (Dev.factory new).trace cfg es = past ++ m :: rest)
include hu hes hlen h

theorem moment_kept : m.st.Kept (sessionIn cfg past) (registers cfg.build (past.map Moment.sight)) ∧ m.st.Sane ∧
    (∃ n, m.st.Takes n ∧ n + 1 < 2 ^ 64) ∧ m.st.Sturdy (sessionIn cfg past) ∧ (Serves m.env ∧ m.ev.Full) ∧
    m.out = (m.st.step cfg m.env m.ev).2 := by
  obtain ⟨ea, eb, rfl, _, rfl, hst, hout, _⟩ := Dev.trace_split h
  have hes' : ∀ e ∈ ea, Serves e.1 ∧ e.2.Full := fun x hx => hes x (by simp [hx])
  have hl : ea.length + 1 < 2 ^ 64 := by simp at hlen; omega
  have hkind : ∀ e ∈ ea, Kind e.1 e.2 := fun x hx => (hes' x hx).1.kind (hes' x hx).2
  rw [hst] at hout ⊢
  exact ⟨history_kept hu ea hes' (by omega), Dev.Sane.of_history hu hkind (by omega),
    ⟨_, Dev.Takes.of_history hu hkind (by omega), hl⟩,
    (Dev.Sturdy.factory hu).run (cfg := cfg) fun x hx => (hes' x hx).1.firm (hes' x hx).2,
    hes (m.env, m.ev) (by simp), hout⟩

/-- C112, the state: while nothing fails, the four things about the device that answers depend on (whether the app runs,
the authorized key, the last signed item, the upload) are at all times what the machine computed from what passed over
the ports. -/
theorem C112_registers :
    m.st.running = (registers cfg.build (past.map Moment.sight)).on ∧
    m.st.keyName = (registers cfg.build (past.map Moment.sight)).key ∧
    m.st.lastItem = (registers cfg.build (past.map Moment.sight)).mark ∧
    sessionIn cfg past = (registers cfg.build (past.map Moment.sight)).sess := by
  obtain ⟨hk, -⟩ := moment_kept cfg new hu es hes hlen past rest m h
  exact ⟨hk.on, hk.key, hk.mark, hk.sess⟩

/-- C112, the answers: every request is answered as the machine says, which saw only what passed over the ports. When
the machine says that the app has stopped, nothing is answered. -/
theorem C112_machine (ins p1 p2 : UInt8) (data : Bytes) (late : Bool)
    (hm : m.sight = .request ins p1 p2 data late) :
    ((registers cfg.build (past.map Moment.sight)).on = true →
      Fits m.st (m.next cfg) m.out ((registers cfg.build (past.map Moment.sight)).answer cfg.build ins p1 p2 data)) ∧
    ((registers cfg.build (past.map Moment.sight)).on = false → m.out = .quiet) := by
  obtain ⟨hk, hsa, ⟨n, ht, hn⟩, hst, ⟨hv, hf⟩, hout⟩ := moment_kept cfg new hu es hes hlen past rest m h
  obtain ⟨st, env, ev, out⟩ := m
  cases ev with
  | apdu buf rx =>
    simp only [Moment.sight] at hm
    split at hm
    · rename_i hwf
      cases hm
      refine ⟨fun hon => ?_, fun hoff => ?_⟩
      · have hrun : st.running = true := hk.on.trans hon
        have := (hk.request (cfg := cfg) (env := env) ht hsa (hst.session hrun) hn hv hrun (rx := rx) hf).2 hwf
        rw [hout]
        exact this
      · have hrun : st.running ≠ true := by rw [show st.running = false from hk.on.trans hoff]; decide
        rw [hout]
        dsimp only
        rw [Dev.step_off hrun (by simp)]
    · cases hm
  | relaunch => cases hm
  | _ =>
    simp only [Moment.sight] at hm
    split at hm
    · split at hm <;> cases hm
    · cases hm

/-- C112, the queries: what the baking app tells about its watermark and its key, without a review, is what the machine
has in its registers; without a watermark it tells the highest level there is. -/
theorem C112_tells (hb : cfg.build = .baking) (ins p1 p2 : UInt8) (data : Bytes) (late : Bool)
    (hm : m.sight = .request ins p1 p2 data late) (hon : (registers .baking (past.map Moment.sight)).on = true) :
    (ins = 0x08 → m.out.reply = some (beEnc 4
      (match (registers .baking (past.map Moment.sight)).mark with
        | some i => i.level
        | none => 0xFFFFFFFF) ++ [0x90, 0x00])) ∧
    (p1 = 0 → ∀ key, (registers .baking (past.map Moment.sight)).key = some key →
      (ins ∈ [0x0D, 0xAD] → m.out.reply = some (key.1 :: key.2 ++ [0x90, 0x00])) ∧
      (ins ∈ [0x07, 0xA7] → m.out.reply = some (key.2 ++ [0x90, 0x00]))) := by
  obtain ⟨hk, hsa, ⟨n, ht, hn⟩, hst, ⟨hv, hf⟩, hout⟩ := moment_kept cfg new hu es hes hlen past rest m h
  have h9 : statusWord .success = [0x90, 0x00] := by decide
  obtain ⟨st, env, ev, out⟩ := m
  cases ev with
  | apdu buf rx =>
    simp only [Moment.sight] at hm
    split at hm
    · rename_i hwf
      cases hm
      rw [← hb] at hon ⊢
      have hrun : st.running = true := hk.on.trans hon
      dsimp only at hk hsa hout hv hf ⊢
      have hlt := (buf.getD 4 0).toNat_lt
      have hfl : buf.length = 260 := hf
      have hcar := sight_carries hf hwf.2.2
      have hrx := Dev.step_rx (cfg := cfg) (env := env) (s := st) (buf := buf) (rx := rx)
        (rx' := 5 + (buf.getD 4 0).toNat) ⟨hwf.1, hwf.2.1⟩ (by omega)
      have hstep : ∀ c, command cfg.build (buf.getD 1 0) = some c →
          out = (st.exec cfg env c (buf.getD 2 0) (buf.getD 3 0) (some (slice buf 5 (buf.getD 4 0).toNat))).deliver.2 := by
        intro c hc
        rw [hout, hrx, hcar.step hrun hc]
      refine ⟨fun hi => ?_, fun hp key hkey => ?_⟩
      · rw [hstep .queryMain (by rw [hi, hb]; rfl), ← hk.mark]
        simp only [Dev.exec, Dev.cmdQueryMain, Dev.lastItem]
        cases hr : st.main.read with
        | ok b =>
          simp only [Dev.ok, Res.deliver, h9]
          congr 2
          unfold be32 WaterMark.level WaterMark.item
          cases WaterMark.decode b <;> rfl
        | err e =>
          rw [hsa.mark .main e hr]
          simp only [Dev.ok, Res.deliver, h9]
          decide +kernel
        | panic => exact absurd hr hsa.solid.main.read
      · rw [← hk.key] at hkey
        unfold Dev.keyName at hkey
        obtain ⟨k, hsk, rfl⟩ := Option.map_eq_some_iff.mp hkey
        obtain ⟨_, a, -, -, hna, -⟩ := hv.address k
        have hcode : k.curve.toByte = curveCode k.curve := by cases k.curve <;> rfl
        have hq : ∀ w, (st.cmdQueryAuth env w 0).deliver.2.reply =
            some ((if w then [k.curve.toByte] else []) ++ k.path.serialize ++ [0x90, 0x00]) := by
          intro w
          unfold Dev.cmdQueryAuth
          rw [Dev.withKey_ok hsk, hna]
          dsimp only
          rw [if_neg (by decide)]
          simp only [View.accept, Dev.ok, Res.deliver, h9]
        refine ⟨fun hi => ?_, fun hi => ?_⟩
        · have hc : command cfg.build (buf.getD 1 0) = some (.queryAuth true) := by
            rw [hb]
            simp only [List.mem_cons, List.not_mem_nil, or_false] at hi
            rcases hi with hi | hi <;> rw [hi] <;> rfl
          rw [hstep _ hc, hp]
          show (st.cmdQueryAuth env true 0).deliver.2.reply = _
          rw [hq, hcode]
          rfl
        · have hc : command cfg.build (buf.getD 1 0) = some (.queryAuth false) := by
            rw [hb]
            simp only [List.mem_cons, List.not_mem_nil, or_false] at hi
            rcases hi with hi | hi <;> rw [hi] <;> rfl
          rw [hstep _ hc, hp]
          show (st.cmdQueryAuth env false 0).deliver.2.reply = _
          rw [hq]
          rfl
    · cases hm
  | relaunch => cases hm
  | _ =>
    simp only [Moment.sight] at hm
    split at hm
    · split at hm <;> cases hm
    · cases hm

end

theorem AsksUser.bare {s s' : Dev} {out : Output} (h : AsksUser s s' out) : out.sig = none ∧ out.fault = none := by
  rcases h.out with ⟨he, -⟩ | ⟨he, -⟩ <;> rw [he] <;> exact ⟨rfl, rfl⟩

/-- The message that is signed and the fault, according to the table. -/
theorem Fits.same {s₁ s₁' s₂ s₂' : Dev} {out₁ out₂ : Output} {a : Spec.Answer} (h₁ : Fits s₁ s₁' out₁ a)
    (h₂ : Fits s₂ s₂' out₂ a) : out₁.sig.map SigRec.msg = out₂.sig.map SigRec.msg ∧ out₁.fault = out₂.fault := by
  cases a with
  | signed msg =>
    obtain ⟨d, x, rfl, hx⟩ := h₁
    obtain ⟨d', x', rfl, hx'⟩ := h₂
    exact ⟨by simp [hx, hx'], rfl⟩
  | stops => rw [show out₁ = _ from h₁, show out₂ = _ from h₂]; exact ⟨rfl, rfl⟩
  | refused w =>
    rw [h₁.out, h₂.out]
    exact ⟨rfl, rfl⟩
  | served =>
    obtain ⟨d, rfl⟩ := h₁
    obtain ⟨d', rfl⟩ := h₂
    exact ⟨rfl, rfl⟩
  | asked =>
    obtain ⟨a, b⟩ := h₁.bare
    obtain ⟨c, d⟩ := h₂.bare
    rw [a, b, c, d]
    exact ⟨rfl, rfl⟩
  | askedIf p =>
    have key : ∀ {s s' : Dev} {out : Output}, Fits s s' out (.askedIf p) → out.sig = none ∧ out.fault = none := by
      rintro s s' out (⟨-, hf⟩ | ⟨-, hf⟩)
      · exact hf.bare
      · rw [hf.out]; exact ⟨rfl, rfl⟩
    obtain ⟨a, b⟩ := key h₁
    obtain ⟨c, d⟩ := key h₂
    rw [a, b, c, d]
    exact ⟨rfl, rfl⟩
  | declined =>
    have key : ∀ {s s' : Dev} {out : Output}, Fits s s' out .declined → out.sig = none ∧ out.fault = none := by
      rintro s s' out (hf | hf) <;> rw [hf.out] <;> exact ⟨rfl, rfl⟩
    obtain ⟨a, b⟩ := key h₁
    obtain ⟨c, d⟩ := key h₂
    rw [a, b, c, d]
    exact ⟨rfl, rfl⟩

/-- C112, two devices: if two devices with the same app, whatever their keys, seeds, screens and histories, saw the same
pass over their ports and then get the same request, then both sign the same message at once, or neither signs one; and
either both or none of them stop. -/
theorem C112_same (cfg₁ cfg₂ : Config) (hb : cfg₁.build = cfg₂.build) (new₁ new₂ : NewDevice)
    (hu₁ : new₁.upload.length = uploadCapacity) (hu₂ : new₂.upload.length = uploadCapacity)
    (es₁ es₂ : List (Env × Event)) (hes₁ : ∀ e ∈ es₁, Serves e.1 ∧ e.2.Full) (hes₂ : ∀ e ∈ es₂, Serves e.1 ∧ e.2.Full)
    (hlen₁ : es₁.length < 2 ^ 64) (hlen₂ : es₂.length < 2 ^ 64) (past₁ rest₁ past₂ rest₂ : List Moment) (m₁ m₂ : Moment)
    (h₁ : (Dev.factory new₁).trace cfg₁ es₁ = past₁ ++ m₁ :: rest₁)
    (h₂ : (Dev.factory new₂).trace cfg₂ es₂ = past₂ ++ m₂ :: rest₂)
    (hpast : past₁.map Moment.sight = past₂.map Moment.sight) (ins p1 p2 : UInt8) (data : Bytes) (late₁ late₂ : Bool)
    (hm₁ : m₁.sight = .request ins p1 p2 data late₁) (hm₂ : m₂.sight = .request ins p1 p2 data late₂) :
    m₁.out.sig.map SigRec.msg = m₂.out.sig.map SigRec.msg ∧ m₁.out.fault = m₂.out.fault := by
  obtain ⟨a₁, b₁⟩ := C112_machine cfg₁ new₁ hu₁ es₁ hes₁ hlen₁ past₁ rest₁ m₁ h₁ ins p1 p2 data late₁ hm₁
  obtain ⟨a₂, b₂⟩ := C112_machine cfg₂ new₂ hu₂ es₂ hes₂ hlen₂ past₂ rest₂ m₂ h₂ ins p1 p2 data late₂ hm₂
  rw [← hb, ← hpast] at a₂ b₂
  cases hon : (registers cfg₁.build (past₁.map Moment.sight)).on with
  | true => exact (a₁ hon).same (a₂ hon)
  | false => rw [b₁ hon, b₂ hon]; exact ⟨rfl, rfl⟩

namespace Demo

/-- A key is authorized, the watermark is set to 5, a block of level 8 is signed, and the app is restarted. -/
def working : List (Env × Event) :=
  authorize ++ ok [apdu 0x06 0 0 (be32 5), apdu 0x04 0 0 keyPath, apdu 0x04 0x81 0 (emmyBlock 8), .relaunch,
    apdu 0x04 0 0 keyPath, apdu 0x04 0x81 0 (emmyBlock 8), apdu 0x08 0 0 [], apdu 0x0D 0 0 []]

theorem working_served : ∀ e ∈ working, Serves e.1 ∧ e.2.Full := by
  have hfull : ∀ e ∈ working, e.2.Full := by decide +kernel
  have hfine : ∀ e ∈ working, e.1 = fine := by simp [working, authorize, ok]
  intro e he
  rw [hfine e he]
  exact ⟨fine_serves, hfull e he⟩

/-- What the machine has in its registers before the `n`-th event of `working`. -/
def workingRegisters (n : Nat) : Registers :=
  registers .baking ((((Dev.factory newSmall).trace bakingApp working).take n).map Moment.sight)

set_option maxRecDepth 100000 in
/-- The hypotheses of the theorems hold of `working`. The machine learns the key at the approval (which is answered with
success), the level at the reset and again at the signature, and keeps both over the restart. It says that the block of
level 8 is signed before and refused after; so it is, and the queries tell what the registers say. -/
example :
    newSmall.upload.length = uploadCapacity ∧ working.length < 2 ^ 64 ∧
    (((Dev.factory newSmall).trace bakingApp working)[4]?.map Moment.sight) = some .agreed ∧
    (workingRegisters 4).key = none ∧ (workingRegisters 5).key = some (0, keyPath) ∧
    (workingRegisters 5).mark = none ∧ (workingRegisters 6).mark = some ⟨0, 5, 0, 0⟩ ∧
    signedBy ((workingRegisters 7).answer .baking 0x04 0x81 0 (emmyBlock 8)) = some (emmyBlock 8) ∧
    (workingRegisters 9).mark = some ⟨0, 8, 0, 0⟩ ∧ (workingRegisters 9).key = some (0, keyPath) ∧
    wordOf ((workingRegisters 10).answer .baking 0x04 0x81 0 (emmyBlock 8)) = some 0x6984 ∧
    (((Dev.factory newSmall).trace bakingApp working).drop 10).map (fun m => m.out.reply) =
      [some [0x69, 0x84], some ([0, 0, 0, 8] ++ [0x90, 0x00]), some ([0] ++ keyPath ++ [0x90, 0x00])] := by
  decide +kernel

end Demo

end Tezos
