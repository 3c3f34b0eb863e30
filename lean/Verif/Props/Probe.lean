import Verif.Props.Blind
import Verif.Props.Catch
/-
The other instructions of the development build: hashing, exceptions, echo, and requests nobody knows.
-/
set_option linter.unusedSimpArgs false
namespace Tezos
open Spec (Session Packet feed acks role uploadCapacity)

/-! ### C91: hashing -/

/-- C91: after any history of a development build, the packet completing an upload to be hashed is answered with the
SHA-256 hash of all that was uploaded, the first packet included. Nothing else changes that the user or a later request
could tell, but for the upload being over. -/
theorem C91_hash (cfg : Config) (new : NewDevice) (hu : new.upload.length = uploadCapacity)
    (es : List (Env × Event)) (hg : ∀ e ∈ es, Good e.1 e.2) (hrun : ((DDev.factory new).run cfg es).1.app.running = true)
    (env : Env) (ev : Event) (hgood : Good env ev) (k : Packet Accessor) (hk : ev.develPacket cfg.build = some k)
    (hfam : k.family = .sha256) (q2 : UInt8) (first data : Bytes)
    (hfed : (feed (develSessionIn cfg ((DDev.factory new).trace cfg es)) k).2 = some (q2, first, data))
    (d : Bytes) (hd : env.cr.sha256 (first ++ data) = some d) (hlen : d.length = 32) :
    let s := ((DDev.factory new).run cfg es).1
    (s.step cfg env ev).2 = ⟨some (d ++ [0x90, 0x00]), none, none⟩ ∧
      ∃ u, (s.step cfg env ev).1 = ⟨{ s.app with upl := u }, s.path, s.review⟩ := by
  intro s
  have hinv : DUplInv s.app.upl (develSessionIn cfg ((DDev.factory new).trace cfg es)) := devel_session hu hg
  obtain ⟨buf, rx, rfl⟩ : ∃ buf rx, ev = .apdu buf rx := by
    cases ev with
    | apdu buf rx => exact ⟨buf, rx, rfl⟩
    | _ => cases hk
  obtain ⟨ins, hrec, hkk⟩ : ∃ ins, DReceived cfg s buf rx ins .hash ∧
      k = ⟨.sha256, buf.getD 2 0, buf.getD 3 0, slice buf 5 (buf.getD 4 0).toNat⟩ := by
    rcases s.apdu_cases cfg env buf rx hrun with ⟨-, h, -⟩ | ⟨ins, c, hrec⟩
    · rw [h] at hk
      exact absurd hfam (Event.packet_devel hk).2
    · have := hrec.packet
      rw [hk] at this
      cases c <;> simp only [DCmd.accessor, Option.map_none, Option.map_some] at this
      · exact ⟨ins, hrec, by simpa using this⟩
      · cases this
      · cases this
      · cases this; cases hfam
      · cases this
  have hfull : (Event.apdu buf rx).Full := hgood.full
  subst hkk
  obtain ⟨ref, hc⟩ := Upl.upload_completes hinv _ (payload_length_le buf) hfed
  rw [hrec.step]
  simp only [DDev.exec, DDev.cmdHash, DDev.cmdUpload]
  rw [apduPayload_full hfull, hgood.copy, hgood.append, hc]
  have hl : buf.length = 260 := hfull
  simp only [hd]
  rw [if_neg (by omega)]
  exact ⟨rfl, _, rfl⟩

/-! ### C91: exceptions -/

/-- What the code does under the exceptions of the system: the machine of `catch_raw` runs it to the answer, or to the
main loop, as `DDev.cmdExcept` says. -/
theorem exceptProgram_runs (p1 p2 : UInt8) :
    ∃ n, (Machine.start (exceptProgram p1 p2) ()).steps n = .inr
      (if p1 ≥ 1 then .returned (beEnc 8 (if p2 = 0 then (1 : UInt32) else p2.toUInt32).toNat) 0 ()
       else .thrown (if p2 = 0 then (1 : UInt32) else p2.toUInt32) ()) := by
  by_cases h0 : p2 = 0
  · subst h0
    by_cases h1 : p1 ≥ 1
    · rw [if_pos h1, exceptProgram, if_pos h1]
      exact ⟨6, rfl⟩
    · rw [if_neg h1, exceptProgram, if_neg h1]
      exact ⟨1, rfl⟩
  · have he : (SysError.syscall p2.toUInt16).toCode = p2.toUInt32 ∧ IsException p2.toUInt32 ∧
        (SysError.ofCode p2.toUInt32).toCode = p2.toUInt32 := by
      revert h0
      revert p2
      intro p2 h0
      have : ∀ p : UInt8, p ≠ 0 → (SysError.syscall p.toUInt16).toCode = p.toUInt32 ∧
          (p.toUInt32 ≠ 0 ∧ p.toUInt32.toNat < 65536) ∧ (SysError.ofCode p.toUInt32).toCode = p.toUInt32 := by
        apply forall_u8
        decide +kernel
      exact this p2 h0
    rw [if_neg h0]
    have ht : (exceptThrow p2).Throws IsException := by
      refine .sys ?_ (fun v => .ret v)
      intro s e s' h
      simp only [Prod.mk.injEq, Except.error.injEq] at h
      rw [← h.1, he.1]
      exact he.2.1
    have hout : (exceptThrow p2).outcome () = (.error p2.toUInt32, ()) := by
      simp only [exceptThrow, Spec.Guarded.outcome, he.1]
    by_cases h1 : p1 ≥ 1
    · rw [if_pos h1, exceptProgram, if_pos h1]
      obtain ⟨n, hn⟩ := C83_guards (.guard (exceptThrow p2) fun
        | .ok _ => .ret (beEnc 8 0x100000000)
        | .error e => .ret (beEnc 8 (SysError.ofCode e).toCode.toNat)) (.guard ht fun r => by cases r <;> exact .ret _) ()
      refine ⟨n, hn.trans ?_⟩
      simp only [Spec.Guarded.outcome, hout, he.2.2]
    · rw [if_neg h1, exceptProgram, if_neg h1]
      obtain ⟨n, hn⟩ := C83_guards (exceptThrow p2) ht ()
      refine ⟨n, hn.trans ?_⟩
      rw [hout]

/-- The request of an event, by its bytes. -/
def Event.request (ins p1 p2 : UInt8) : Event → Prop
  | .apdu buf rx => 5 ≤ rx ∧ rx ≤ buf.length ∧ buf[0]? = some 0x80 ∧ buf[1]? = some ins ∧ buf[2]? = some p1 ∧
      buf[3]? = some p2
  | _ => False

/-- C91: a request for an exception is answered with the exception: by the handler, in eight bytes, if it is to be caught,
and otherwise by the main loop. The exception 0 comes out as 1. Nothing changes. -/
theorem C91_exception (cfg : Config) (s : DDev) (hrun : s.app.running = true) (env : Env) (p1 p2 : UInt8) (ev : Event)
    (h : ev.request 0xF1 p1 p2) :
    s.step cfg env ev = (s, ⟨some (
      if 1 ≤ p1 then [0, 0, 0, 0, 0, 0, 0, if p2 = 0 then 1 else p2, 0x90, 0x00]
      else [0, if p2 = 0 then 1 else p2, 0x64, 0x00]), none, none⟩) := by
  cases ev with
  | apdu buf rx =>
    obtain ⟨h1, h2, h3, h4, h5, h6⟩ := h
    have hrec : DReceived cfg s buf rx 0xF1 .except := ⟨hrun, ⟨h1, h2⟩, h3, h4, by
      cases cfg.build <;> decide +kernel⟩
    rw [hrec.step]
    simp only [DDev.exec, DDev.cmdExcept]
    rw [List.getD_eq_getElem?_getD, List.getD_eq_getElem?_getD, h5, h6]
    simp only [Option.getD_some]
    have hv : ∀ p : UInt8, beEnc 8 (if p = 0 then (1 : UInt32) else p.toUInt32).toNat =
          [0, 0, 0, 0, 0, 0, 0, if p = 0 then 1 else p] ∧
        exceptionReply (if p = 0 then (1 : UInt32) else p.toUInt32) = [0, if p = 0 then 1 else p, 0x64, 0x00] := by
      apply forall_u8
      decide +kernel
    by_cases hp : 1 ≤ p1
    · rw [if_pos hp, if_pos hp, (hv p2).1]
      rfl
    · rw [if_neg hp, if_neg hp, ← (hv p2).2]
      rfl
  | _ => exact h.elim

/-! ### C91: echo -/

/-- A review whose first item has a text of at most 34 bytes opens. -/
theorem openReview_short {w : Viewer} {num : UInt8} (hn : w.numItems = .ok num) (hpos : 0 < num.toNat) {f : Field}
    (hf : w.item 0 = .ok f) (hlen : f.text.length ≤ 34) (z : Zui) : ∃ z', z.openReview w = .shown z' := by
  unfold Zui.openReview
  cases z.large with
  | some l => exact ⟨_, rfl⟩
  | none =>
    have hr : ∃ t n, renderItem w 0 0 = .ok (asciify f.title, t, n) ∧ n ≠ 0 := by
      have hh : ∃ t, ∃ n : UInt8, handleUi f.text messageSize 0 = .ok (t, n) ∧ n.toNat ≠ 0 := by
        unfold handleUi messageSize
        rw [if_neg (by omega)]
        dsimp only
        by_cases h : 35 - 1 ≤ f.text.length
        · have h34 : f.text.length = 34 := by omega
          refine ⟨f.text, 2, ?_, by decide⟩
          rw [if_pos h]
          have hc : nthChunk f.text (35 - 1) (0 : UInt8).toNat = some f.text := by
            unfold nthChunk
            simp [h34]
          rw [hc, h34]
          rfl
        · rw [if_neg h]
          exact ⟨_, _, rfl, by decide⟩
      obtain ⟨t, n, h, h0⟩ := hh
      refine ⟨asciify t, n.toNat, ?_, h0⟩
      unfold renderItem
      rw [show UInt8.ofNat 0 = 0 from rfl, hf]
      show (do let (t, n) ← handleUi f.text messageSize 0; _) = _
      rw [h]
      rfl
    obtain ⟨t, n, hr, h0⟩ := hr
    show ∃ z', reviewUpdate (some w) z.pagingInit = .shown z'
    have h1 : z.pagingInit.itemIdx = 0 := rfl
    have h2 : z.pagingInit.pageIdx = 0 := rfl
    generalize z.pagingInit = y at h1 h2
    unfold reviewUpdate
    simp only [hn]
    rw [if_neg (by omega), if_neg (by omega)]
    unfold updateLoop
    simp only [h1, hr]
    rw [if_neg (by omega)]
    simp only [h1, h2, hr]
    rw [if_neg h0]
    exact ⟨_, rfl⟩

/-- C91: an echo of one to two lines of 17 characters opens a review, a longer one is refused. One of less than a line
stops the app. -/
theorem C91_echo_length (cfg : Config) (s : DDev) (hrun : s.app.running = true) (env : Env) (p1 p2 : UInt8) (buf : Bytes)
    (rx : Nat) (h : (Event.apdu buf rx).request 0xF2 p1 p2) (hfull : (Event.apdu buf rx).Full) :
    (34 < (buf.getD 4 0).toNat → s.step cfg env (.apdu buf rx) = (s, ⟨some [0x67, 0x00], none, none⟩)) ∧
    (17 ≤ (buf.getD 4 0).toNat → (buf.getD 4 0).toNat ≤ 34 →
      (s.step cfg env (.apdu buf rx)).2 = .quiet ∧ (s.step cfg env (.apdu buf rx)).1.review.isSome) ∧
    ((buf.getD 4 0).toNat < 17 → (s.step cfg env (.apdu buf rx)).2 = ⟨none, none, some .panic⟩) := by
  obtain ⟨h1, h2, h3, h4, h5, h6⟩ := h
  have hrec : DReceived cfg s buf rx 0xF2 .echo := ⟨hrun, ⟨h1, h2⟩, h3, h4, by cases cfg.build <;> decide +kernel⟩
  rw [hrec.step]
  simp only [DDev.exec, DDev.cmdEcho]
  rw [apduPayload_full hfull]
  have hl : (slice buf 5 (buf.getD 4 0).toNat).length = (buf.getD 4 0).toNat := by
    have h260 : buf.length = 260 := hfull
    have := (buf.getD 4 0).toNat_lt
    exact slice_length (by omega)
  dsimp only
  rw [hl]
  refine ⟨?_, ?_, ?_⟩
  · intro h
    rw [if_pos (by omega)]
    rfl
  · intro hlo hhi
    rw [if_neg (by omega), if_neg (by omega)]
    unfold DDev.show
    obtain ⟨z', hz⟩ := openReview_short (w := (DView.echo ((slice buf 5 (buf.getD 4 0).toNat).take 17)
        ((slice buf 5 (buf.getD 4 0).toNat).drop 17 ++ List.replicate (34 - (buf.getD 4 0).toNat) 0)).viewer s.app.upl)
      (num := 1) rfl (by decide) (by simp only [DView.viewer]; rfl)
      (by
        refine le_trans (List.takeWhile_sublist _).length_le ?_
        simp only [List.length_append, List.length_take, List.length_drop, List.length_replicate, hl]
        omega) s.app.zui
    dsimp only
    rw [hz]
    exact ⟨rfl, rfl⟩
  · intro h
    rw [if_neg (by omega), if_pos h]
    rfl

/-! ### Reviews of one short text -/

/-- How a text appears on the display: what is not printable is replaced. -/
def dots (t : Bytes) : Bytes := t.map fun c => if 32 ≤ c ∧ c ≤ 0x7F then c else 46

theorem asciify_dots {t : Bytes} (h : (0 : UInt8) ∉ t) : asciify t = dots t := by
  unfold asciify dots
  rw [takeWhile_self (p := (· != 0)) (by intro c hc; simp; rintro rfl; exact h hc)]

/-- The screens of the review of a text that fits on a page, before the approval. -/
def textScreens (d : Display) (title : String) (t : Bytes) : List Screen :=
  match d with
  | .small => [.review (ascii title) ((dots t).take 17) ((dots t).drop 17)]
  | .large => [.review (ascii "Please") (ascii "review") [], .review (ascii title) (dots t) []]

/-- Reading a review of one short text. -/
theorem text_read {w : Viewer} {title : String} {t : Bytes} (htitle : asciify (ascii title) = ascii title)
    (h0 : (0 : UInt8) ∉ t) (ht : t.length ≤ 33) (hnum : w.numItems = .ok 1)
    (hitem : w.item = fun n => if n = 0 then .ok ⟨ascii title, t⟩ else .error .noData) (z : Zui) :
    ∃ zs z1 z3, z.openReview w = .shown z1 ∧ (z1 :: zs).map Zui.screen = textScreens z.display title t ++ [approveScreen] ∧
      (z1 :: zs).getLast? = some z3 ∧ z3.chosen = .approve ∧
      ∀ i a b, (z1 :: zs)[i]? = some a → (z1 :: zs)[i + 1]? = some b → a.goRight (some w) = .shown b := by
  have hi0 : w.item 0 = .ok ⟨ascii title, t⟩ := by rw [hitem]; rfl
  cases hlg : z.large with
  | none =>
    have hdisp : z.display = .small := by unfold Zui.display; rw [hlg]; rfl
    have hleg : Legible w 1 := ⟨hnum, fun i hi => ⟨⟨ascii title, t⟩, by
      have : i = 0 := by simpa using hi
      subst this
      exact hi0, ⟨by show t.length < _; omega, by
        by_cases ht0 : t = []
        · subst ht0; simp
        · left
          have : t.length ≠ 0 := by simpa using ht0
          show t.length % 34 ≠ 0
          omega⟩⟩⟩
    obtain ⟨z1, z3, h1, h2, h3, -, -⟩ := C76_walk hleg (by decide) z
    have hpg : pagesOf 34 t = [t] := by
      unfold pagesOf
      split
      · rename_i h; subst h; rfl
      · rename_i h
        have hd : t.drop 34 = [] := by rw [List.drop_eq_nil_iff]; omega
        have h1 : t.length ≠ 0 := by simpa using h
        obtain ⟨n, hn⟩ : ∃ n, t.length = n + 1 := ⟨t.length - 1, by omega⟩
        rw [hn]
        simp only [chunksOf, h, if_false, hd]
        rw [List.take_of_length_le (by omega)]
        cases n <;> simp [chunksOf]
    have hscr : reviewScreens w (1 : UInt8).toNat = textScreens .small title t := by
      have hp : reviewPages w (1 : UInt8).toNat = [(⟨ascii title, t⟩, 0)] := by
        show [] ++ _ = _
        rw [show UInt8.ofNat 0 = 0 from rfl, hi0]
        show (List.range (pagesOf 34 t).length).map _ = _
        rw [hpg]
        rfl
      unfold reviewScreens
      rw [hp]
      have ha : announcedPages t = 1 := by unfold announcedPages; rw [if_neg (by omega)]
      have hk : keyWithPage (ascii title) 0 1 = ascii title := by unfold keyWithPage; rw [if_neg (by omega)]
      simp only [List.map_cons, List.map_nil, screenOf, hpg, ha, List.getD_cons_zero, asciify_dots h0, pageScreen, htitle,
        hk, textScreens]
      have hsp : splitLines (dots t) = ((dots t).take 17, (dots t).drop 17) := by
        unfold splitLines lineSize
        split
        · rfl
        · rw [List.take_of_length_le (by omega), List.drop_eq_nil_iff.mpr (by omega)]
      rw [hsp]
    have hlen : (reviewPages w (1 : UInt8).toNat).length = 1 := by
      have := congrArg List.length hscr
      rw [reviewScreens, List.length_map] at this
      exact this
    rw [hlen, hscr] at h2
    simp only [List.replicate_succ, List.replicate_zero, uiRun] at h2
    have g1 : z1.large = none := (Zui.reviewUpdate_large h1).trans hlg
    cases hr1 : z1.right (some w) with
    | shown z2 =>
      simp only [hr1, Option.some.injEq, Prod.mk.injEq] at h2
      obtain ⟨rfl, h2⟩ := h2
      have g2 : z2.large = none := (Zui.reviewUpdate_large hr1).trans ((Zui.pagingIncrease_large z1).trans g1)
      refine ⟨[z2], z1, z2, by rw [Zui.openReview, hlg]; exact h1, by rw [hdisp, ← h2]; rfl, rfl,
        by rw [Zui.chosen, g2]; exact h3, ?_⟩
      intro i a b ha hb
      match i with
      | 0 =>
        cases ha; cases hb
        rw [Zui.goRight, g1]
        exact hr1
      | i + 1 => simp at hb
    | _ => simp only [hr1] at h2; cases h2
  | some l =>
    have hdisp : z.display = .large := Zui.display_large.mpr ⟨l, hlg⟩
    have hfit : FitsX w 1 := by
      refine ⟨hnum, ?_, ?_⟩
      · intro n f hf
        rw [hitem] at hf
        dsimp only at hf
        split at hf
        · cases hf
          show t.length < _
          omega
        · cases hf
      · intro i hi
        have : i = 0 := by simpa using hi
        subst this
        rw [show UInt8.ofNat 0 = 0 from rfl, hi0]
        simp
    obtain ⟨x3, h2, h3, -, -⟩ := C75_walk hfit (by decide) (fun i hi => ⟨⟨ascii title, t⟩, by
      have : i = 0 := by simpa using hi
      subst this
      exact hi0⟩) (by rw [hitem]; rfl) l.x
    have hsh : shownItems w (1 : UInt8).toNat = [SeenX.shows ⟨ascii title, t⟩] := by
      show shownItems w 1 = _
      simp only [shownItems, List.nil_append]
      rw [show UInt8.ofNat 0 = 0 from rfl, hi0]
    rw [hsh] at h2
    simp only [show (1 : UInt8).toNat + 1 = 2 from rfl, List.replicate_succ, List.replicate_zero, uiRunX] at h2
    cases hr1 : l.x.showReview.right (some w) with
    | on x2 =>
      simp only [hr1] at h2
      cases hr2 : x2.right (some w) with
      | on x3' =>
        simp only [hr2, Option.some.injEq, Prod.mk.injEq] at h2
        obtain ⟨rfl, h2⟩ := h2
        have h2' : [SeenX.please, x2.seen, x3'.seen] = [SeenX.please, SeenX.shows ⟨ascii title, t⟩, SeenX.approve] := by
          simpa using h2
        simp only [List.cons.injEq, true_and, and_true] at h2'
        obtain ⟨e1, e2⟩ := h2'
        refine ⟨[(z.atStep l l.x.showReview).atStep ⟨l.x.showReview, l.err⟩ x2,
          ((z.atStep l l.x.showReview).atStep ⟨l.x.showReview, l.err⟩ x2).atStep ⟨x2, l.err⟩ x3'],
          z.atStep l l.x.showReview, _, ?_, ?_, rfl, h3, ?_⟩
        · rw [Zui.openReview, hlg]
        · rw [hdisp]
          show [l.x.showReview.screen, x2.screen, x3'.screen] = _
          rw [← ZuiX.seen_screen x2, ← ZuiX.seen_screen x3', e1, e2]
          show [Screen.review (ascii "Please") (ascii "review") [], .review (asciify (ascii title)) (asciify t) [], _] = _
          rw [htitle, asciify_dots h0]
          rfl
        · intro i a b ha hb
          match i with
          | 0 =>
            cases ha; cases hb
            simp only [Zui.goRight, Zui.atStep, hr1, Zui.ofResX]
          | 1 =>
            cases ha; cases hb
            simp only [Zui.goRight, Zui.atStep, hr2, Zui.ofResX]
          | i + 2 => simp at hb
      | _ => simp only [hr2] at h2; cases h2
    | _ => simp only [hr1] at h2; cases h2

/-- The right button, along the pages of a review. -/
theorem DDev.rights {cfg : Config} {env : Env} {v : DView} {s : DDev} (hrun : s.app.running = true)
    (hv : s.review = some v) {zs : List Zui} {z1 z3 : Zui} (hl : (z1 :: zs).getLast? = some z3)
    (hs : ∀ z ∈ z1 :: zs, ∃ t a b, z.screen = .review t a b)
    (hr : ∀ i a b, (z1 :: zs)[i]? = some a → (z1 :: zs)[i + 1]? = some b →
      a.goRight (some (v.viewer s.app.upl)) = .shown b) :
    ((s.withZui z1).run cfg (List.replicate zs.length (env, .right))) =
        (s.withZui z3, List.replicate zs.length .quiet) ∧
      ((s.withZui z1).trace cfg (List.replicate zs.length (env, .right))).map
        (fun m => (m.next cfg).app.zui.screen) = zs.map Zui.screen := by
  induction zs generalizing z1 with
  | nil => cases hl; exact ⟨rfl, rfl⟩
  | cons z2 zs ih =>
    obtain ⟨t, a, b, h1⟩ := hs z1 (by simp)
    have hstep : (s.withZui z1).step cfg env .right = (s.withZui z2, .quiet) := by
      have hv' : (s.withZui z1).review = some v := hv
      have hrun' : (s.withZui z1).app.running = true := hrun
      simp only [DDev.step, hv', hrun', if_true]
      exact DDev.button_right (s := s.withZui z1) h1 (hr 0 z1 z2 rfl rfl)
    obtain ⟨i1, i2⟩ := ih (z1 := z2) (by simpa [List.getLast?_cons_cons] using hl) (fun z hz => hs z (by simp [hz]))
      (fun i a b ha hb => hr (i + 1) a b (by simpa using ha) (by simpa using hb))
    refine ⟨?_, ?_⟩
    · simp only [List.length_cons, List.replicate_succ, DDev.run, hstep, i1]
    · simp only [List.length_cons, List.replicate_succ, DDev.trace, List.map_cons, DMoment.next, hstep] at i2 ⊢
      rw [i2]
      rfl

/-- A review of one short text, opened, read and approved. -/
theorem DDev.text_review {cfg : Config} {env env1 env2 : Env} {ev : Event} {s t : DDev} {v : DView} {title : String}
    {x : Bytes} (htitle : asciify (ascii title) = ascii title) (h0 : (0 : UInt8) ∉ x) (hx : x.length ≤ 33)
    (hstep : s.step cfg env ev = (t.show v).deliver) (hrun : t.app.running = true)
    (hnum : (v.viewer t.app.upl).numItems = .ok 1)
    (hitem : (v.viewer t.app.upl).item = fun n => if n = 0 then .ok ⟨ascii title, x⟩ else .error .noData)
    (hacc : ∀ s, (v.accept env2 s).out = .handler (.ok []) ∧ (v.accept env2 s).sig = none) :
    let n := (textScreens t.app.zui.display title x).length
    (s.run cfg ((env, ev) :: List.replicate n (env1, .right) ++ [(env2, .both)])).2 =
        List.replicate (n + 1) .quiet ++ [⟨some [0x90, 0x00], none, none⟩] ∧
      (s.trace cfg ((env, ev) :: List.replicate n (env1, .right))).map (fun m => (m.next cfg).app.zui.screen) =
        textScreens t.app.zui.display title x ++ [approveScreen] ∧
      (s.run cfg ((env, ev) :: List.replicate n (env1, .right) ++ [(env2, .both)])).1.review = none := by
  intro n
  obtain ⟨zs, z1, z3, h1, h2, h3, h4, h5⟩ := text_read htitle h0 hx hnum hitem t.app.zui
  have hn : n = zs.length := by
    have := congrArg List.length h2
    simp only [List.length_map, List.length_cons, List.length_append, List.length_nil] at this
    omega
  have hst : ∀ z ∈ z1 :: zs, ∃ t a b, z.screen = .review t a b := by
    intro z hz
    have : z.screen ∈ textScreens t.app.zui.display title x ++ [approveScreen] := by
      rw [← h2]; exact List.mem_map_of_mem hz
    cases hd : t.app.zui.display <;> rw [hd] at this <;>
      simp only [textScreens, List.cons_append, List.nil_append, List.mem_cons, List.not_mem_nil, or_false] at this
    · rcases this with e | e <;> exact ⟨_, _, _, e⟩
    · rcases this with e | e | e <;> exact ⟨_, _, _, e⟩
  let t1 : DDev := ⟨{ t.app with view := none }, t.path, some v⟩
  have hs1 : s.step cfg env ev = (t1.withZui z1, .quiet) := by
    rw [hstep]
    simp only [DDev.show, h1]
    rfl
  obtain ⟨r1, r2⟩ := DDev.rights (cfg := cfg) (env := env1) (v := v) (s := t1) hrun rfl h3 hst h5
  obtain ⟨ta, a, b, h6⟩ := hst z3 (by
    have := List.mem_of_getLast? h3
    exact this)
  have hch : (t1.withZui z3).choose env2 v = (t1.withZui z3).approve env2 v := by
    simp only [DDev.choose]
    rw [show (t1.withZui z3).app.zui.chosen = .approve from h4]
  have hap : ((t1.withZui z3).approve env2 v).2 = ⟨some [0x90, 0x00], none, none⟩ := by
    simp only [DDev.approve, DRes.deliver]
    obtain ⟨e1, e2⟩ := hacc ((t1.withZui z3).withZui { (t1.withZui z3).app.zui with screen := .idle })
    rw [e1, e2]
    rfl
  have hbt := DDev.button_chosen (env := env2) (v := v) (s := t1.withZui z3) h6
    (by rw [hch]; rfl) (by rw [hch, hap]; simp) (by rw [hch, hap])
  have hs4 : (t1.withZui z3).step cfg env2 .both = (t1.withZui z3).button env2 v .both := by
    show (if t1.app.running then (t1.withZui z3).button env2 v .both else _) = _
    rw [if_pos hrun]
  have hrn : s.run cfg ((env, ev) :: List.replicate n (env1, .right) ++ [(env2, .both)]) =
      (((t1.withZui z3).button env2 v .both).1, List.replicate (n + 1) .quiet ++ [⟨some [0x90, 0x00], none, none⟩]) := by
    rw [DDev.run_append]
    simp only [DDev.run, hs1, hn, r1, hs4, hbt.1, hch, hap]
    rfl
  refine ⟨by rw [hrn], ?_, by rw [hrn]; exact hbt.2.1⟩
  simp only [DDev.trace, List.map_cons, DMoment.next, hs1, hn]
  rw [← h2, List.map_cons]
  simp only [DMoment.next] at r2
  rw [r2]
  rfl

/-! ### C91: echo -/

/-- C91: an echo of at least a line and less than two, without zero bytes, is shown to the user, and answered when they
agree. -/
theorem C91_echo_partial (cfg : Config) (s : DDev) (hrun : s.app.running = true) (env env1 env2 : Env) (p1 p2 : UInt8) (buf : Bytes)
    (rx : Nat) (h : (Event.apdu buf rx).request 0xF2 p1 p2) (hfull : (Event.apdu buf rx).Full) (x : Bytes)
    (hx : x = (buf.drop 5).take (buf.getD 4 0).toNat) (hlo : 17 ≤ x.length) (hhi : x.length ≤ 33) (h0 : (0 : UInt8) ∉ x) :
    let n := (textScreens s.app.zui.display "Echo" x).length
    (s.run cfg ((env, .apdu buf rx) :: List.replicate n (env1, .right) ++ [(env2, .both)])).2 =
        List.replicate (n + 1) .quiet ++ [⟨some [0x90, 0x00], none, none⟩] ∧
      (s.trace cfg ((env, .apdu buf rx) :: List.replicate n (env1, .right))).map (fun m => (m.next cfg).app.zui.screen) =
        textScreens s.app.zui.display "Echo" x ++ [approveScreen] := by
  obtain ⟨h1, h2, h3, h4, h5, h6⟩ := h
  have hrec : DReceived cfg s buf rx 0xF2 .echo := ⟨hrun, ⟨h1, h2⟩, h3, h4, by cases cfg.build <;> decide +kernel⟩
  have hstep : s.step cfg env (.apdu buf rx) =
      (s.show (.echo (x.take 17) (x.drop 17 ++ List.replicate (34 - x.length) 0))).deliver := by
    rw [hrec.step]
    simp only [DDev.exec, DDev.cmdEcho]
    rw [apduPayload_full hfull]
    have : slice buf 5 (buf.getD 4 0).toNat = x := hx.symm
    rw [this]
    dsimp only
    rw [if_neg (by omega), if_neg (by omega)]
  have := DDev.text_review (env1 := env1) (env2 := env2) (title := "Echo") (x := x) (by decide +kernel) h0 hhi hstep hrun rfl
    (by
      funext n
      simp only [DView.viewer]
      rw [← List.append_assoc, List.take_append_drop]
      rw [takeWhile_append_stop (p := (· != 0)) (by intro c hc; simp; rintro rfl; exact h0 hc)
        (by
          intro hne
          obtain ⟨k, hk⟩ : ∃ k, 34 - x.length = k + 1 := ⟨33 - x.length, by omega⟩
          simp [hk, List.replicate_succ])])
    (fun s => ⟨rfl, rfl⟩)
  exact ⟨this.1, this.2.1⟩

/-! ### C92 -/

/-- C92, in part: after any history of a development build that leaves nothing in the upload buffer, a request that the
app does not know is shown to the user, if it is short and has no zero bytes, and answered when they agree. What is
missing: a request with zero bytes is shown up to the first one, and a longer one is not shown exactly where a page is
full (`C92_cut`); what is left in the buffer is shown before the request (`C92_stale`). -/
theorem C92_shown_partial (cfg : Config) (new : NewDevice) (hu : new.upload.length = uploadCapacity)
    (es : List (Env × Event)) (hg : ∀ e ∈ es, Good e.1 e.2) (hrun : ((DDev.factory new).run cfg es).1.app.running = true)
    (hempty : ((DDev.factory new).run cfg es).1.app.upl.buf.readExact = [])
    (env env1 env2 : Env) (buf : Bytes) (rx : Nat) (hgood : Good env (.apdu buf rx))
    (h : (Event.apdu buf rx).Unknown cfg.build) (x : Bytes) (hx : x = buf.take (5 + (buf.getD 4 0).toNat))
    (hhi : x.length ≤ 33) (h0 : (0 : UInt8) ∉ x) :
    let s := ((DDev.factory new).run cfg es).1
    let n := (textScreens s.app.zui.display "APDU" x).length
    (s.run cfg ((env, .apdu buf rx) :: List.replicate n (env1, .right) ++ [(env2, .both)])).2 =
        List.replicate (n + 1) .quiet ++ [⟨some [0x90, 0x00], none, none⟩] ∧
      (s.trace cfg ((env, .apdu buf rx) :: List.replicate n (env1, .right))).map (fun m => (m.next cfg).app.zui.screen) =
        textScreens s.app.zui.display "APDU" x ++ [approveScreen] := by
  intro s
  have hinv : DUplInv s.app.upl (develSessionIn cfg ((DDev.factory new).trace cfg es)) := devel_session hu hg
  obtain ⟨h1, h2, h3, ins, h4, h5⟩ := h
  have hrec : DReceived cfg s buf rx ins .debug := ⟨hrun, ⟨h1, h2⟩, h3, h4, develCommand_debug.mpr h5⟩
  have hfull : (Event.apdu buf rx).Full := hgood.full
  have h260 : buf.length = 260 := hfull
  have hlt := (buf.getD 4 0).toNat_lt
  have hl : (slice buf 5 (buf.getD 4 0).toNat).length = (buf.getD 4 0).toNat := slice_length (by omega)
  have hxx : x = (buf.take 4 ++ [UInt8.ofNat (slice buf 5 (buf.getD 4 0).toNat).length]) ++
      slice buf 5 (buf.getD 4 0).toNat := by
    rw [hl, hx, UInt8.ofNat_toNat, show 5 + (buf.getD 4 0).toNat = 4 + (1 + (buf.getD 4 0).toNat) by omega, List.take_add,
      List.append_assoc]
    congr 1
    have h4 : buf.drop 4 = buf.getD 4 0 :: buf.drop 5 := by
      rw [List.drop_eq_getElem_cons (by omega)]
      simp [List.getD_eq_getElem?_getD, List.getElem?_eq_getElem (show 4 < buf.length by omega)]
    rw [h4, Nat.add_comm 1, List.take_succ_cons]
    rfl
  obtain ⟨u, hu1, hu2, hstep⟩ : ∃ u : Upl, u.lock = some .debug ∧ u.buf.readExact = x ∧
      s.step cfg env (.apdu buf rx) = (DDev.show .debug { s with app := { s.app with upl := u } }).deliver := by
    have hcnt : s.app.upl.buf.cnt = 0 := by rw [← hinv.wf.readExact_length, hempty]; rfl
    have hcap : uploadCapacity = 8191 := rfl
    have hfl := hinv.flashLen
    generalize hhd : buf.take 4 ++ [UInt8.ofNat (slice buf 5 (buf.getD 4 0).toNat).length] = head at hxx
    have hhl : head.length = 5 := by rw [← hhd]; simp [h260]
    have w1 := SwapBuf.write_spec hinv.wf .done .done head
    have o1 := SwapBuf.write_done hinv.wf (bs := head) (by omega)
    have r1 := w1.ok o1
    have c1 : (s.app.upl.buf.write .done .done head).1.cnt = 5 := by
      rw [← w1.wf.readExact_length, r1.1, hempty, List.nil_append, hhl]
    have w2 := SwapBuf.write_spec w1.wf .done .done (slice buf 5 (buf.getD 4 0).toNat)
    have o2 := SwapBuf.write_done w1.wf (bs := slice buf 5 (buf.getD 4 0).toNat) (by rw [w1.flashLen]; omega)
    have r2 := w2.ok o2
    refine ⟨⟨some .debug, ((s.app.upl.buf.write .done .done head).1.write .done .done
      (slice buf 5 (buf.getD 4 0).toNat)).1, s.app.upl.initLen⟩, rfl, ?_, ?_⟩
    · rw [r2.1, r1.1, hempty, List.nil_append, ← hxx]
    · rw [hrec.step]
      simp only [DDev.exec, DDev.cmdDebug]
      rw [apduPayload_full hfull, hgood.copy, hgood.append]
      simp only [hhd, lockLock, o1, o2]
  have := DDev.text_review (env1 := env1) (env2 := env2) (title := "APDU") (x := x) (by decide +kernel) h0 hhi hstep hrun rfl
    (by
      funext n
      simp only [DView.viewer, hu1, hu2, lockAcquire, if_true])
    (fun s => ⟨rfl, rfl⟩)
  exact ⟨this.1, this.2.1⟩

/-! ### Examples -/

section
open Demo

/-- A request that no build knows. -/
def Demo.odd (p1 : UInt8) (data : Bytes) : Event := apdu 0x30 p1 1 data

/-- What is on the display after the last event. -/
def Demo.lastScreen (d : Display) (es : List (Env × Event)) : Screen :=
  ((DDev.factory (develNew d)).run walletApp es).1.app.zui.screen

/-- C92 in full is false: a request is shown up to its first zero byte. These two differ only after it, and all is the
same for the user. -/
theorem C92_cut : ∃ ev1 ev2 : Event, ev1 ≠ ev2 ∧ ev1.Unknown walletApp.build ∧ ev2.Unknown walletApp.build ∧
    ∀ d ∈ [Display.small, .large],
      (develSeen d (ok [ev1, .right, .right])) = (develSeen d (ok [ev2, .right, .right])) ∧
      ((develSeen d (ok [ev1, .right, .right])).map Prod.fst).take 3 =
        (if d = .small then [.review (ascii "APDU") (ascii ".0") [], approveScreen, rejectScreen]
         else [.review (ascii "Please") (ascii "review") [], .review (ascii "APDU") (ascii ".0") [], approveScreen]) := by
  refine ⟨odd 0 [1], odd 0 [2], by decide +kernel, by decide +kernel, by decide +kernel, ?_⟩
  decide +kernel

/-- What is left in the buffer is shown before the request: the key of a signing request that was begun (whose first byte,
the curve, is zero: nothing is shown), or an earlier unknown request whose review was replaced. -/
theorem C92_stale : lastScreen .small (ok [apdu 0x04 0 0 keyPath, odd 2 [3]]) = .review (ascii "APDU") [] [] ∧
    lastScreen .small (ok [odd 0x61 (ascii "bcdefgh"), odd 0x61 (ascii "stuvwxy")]) =
      .review (ascii "APDU") (ascii ".0a..bcdefgh.0a..") (ascii "stuvwxy") := by
  decide +kernel

/-- The hypotheses of `C92_shown_partial`, and its screens on the smaller display. -/
example : let es := setup 1 ++ sign (tbEndorsement 5 0) ++ ok [odd 0x61 (ascii "bcd"), .right, .both]
    (∀ e ∈ es, Good e.1 e.2) ∧ ((DDev.factory (develNew .small)).run bakingApp es).1.app.running = true ∧
    ((DDev.factory (develNew .small)).run bakingApp es).1.app.upl.buf.readExact = [] ∧
    Good fine (odd 0x61 (ascii "xyz")) ∧ (odd 0x61 (ascii "xyz")).Unknown bakingApp.build ∧
    (0 : UInt8) ∉ ([0x80, 0x30, 0x61, 1, 3] ++ ascii "xyz") ∧
    textScreens .small "APDU" ([0x80, 0x30, 0x61, 1, 3] ++ ascii "xyz") = [.review (ascii "APDU") (ascii ".0a..xyz") []] := by
  refine ⟨?_, ?_, ?_, ?_, ?_, ?_, ?_⟩ <;> decide +kernel

/-- An upload of three packets to be hashed. -/
example : ((DDev.factory (develNew .small)).run walletApp
      (ok [apdu 0xF0 0 0 [1, 2], apdu 0xF0 1 0 [3], apdu 0xF0 0x81 0 [4, 5]])).2.map Output.reply =
    [some [0x90, 0x00], some [0x90, 0x00], some (hash 32 [1, 2, 3, 4, 5] ++ [0x90, 0x00])] := by
  decide +kernel

/-- Exceptions, caught and not. -/
example : ((DDev.factory (develNew .small)).run walletApp
      (ok [apdu 0xF1 1 5 [], apdu 0xF1 0 5 [], apdu 0xF1 1 0 []])).2.map Output.reply =
    [some [0, 0, 0, 0, 0, 0, 0, 5, 0x90, 0x00], some [0, 5, 0x64, 0], some [0, 0, 0, 0, 0, 0, 0, 1, 0x90, 0x00]] ∧
    (apdu 0xF1 1 5 []).request 0xF1 1 5 := by
  refine ⟨by decide +kernel, ?_⟩
  simp only [Event.request, apdu]
  decide +kernel

/-- An echo of 20 characters, one that is too short, and one that is too long. -/
example : lastScreen .small (ok [apdu 0xF2 0 0 (ascii "abcdefghijklmnopqrst")]) =
      .review (ascii "Echo") (ascii "abcdefghijklmnopq") (ascii "rst") ∧
    ((DDev.factory (develNew .small)).run walletApp (ok [apdu 0xF2 0 0 (List.replicate 35 65), apdu 0xF2 0 0 [65]])).2 =
      [⟨some [0x67, 0x00], none, none⟩, ⟨none, none, some .panic⟩] := by
  decide +kernel

end

end Tezos
