import Verif.Props.Approvals
/-
C60: every signature is of a message uploaded in one session since the last start of the app, and a restart leaves nothing
to approve.
-/
set_option linter.unusedSimpArgs false
namespace Tezos
open Spec

/-- The message of a signature was uploaded: the packet at `m0`, in the history `l = a ++ m0 :: b` that ends with the
signature, completed an upload of this message, whose session is that of the packets in `a`. -/
structure Uploaded (cfg : Config) (l : List Moment) (m : Moment) (x : SigRec) : Prop where
  ex : ∃ a m0 b k q2 first, l = a ++ m0 :: b ∧ m0.ev.packet cfg.build = some k ∧
    (feed (sessionIn cfg a) k).2 = some (q2, first, x.msg) ∧
    ((isConsensusMagic x.msg = true ∧ b = []) ∨
      (isConsensusMagic x.msg = false ∧ ∃ v, m0.Opens cfg v ∧ Approves m.st m.ev v ∧ ∀ y ∈ b, y.st.view = some v))

theorem uploaded {cfg : Config} {s : Dev} (h0 : s.view = none) (hi : UplInv s.upl none)
    {es : List (Env × Event)} (hg : ∀ e ∈ es, Good e.1 e.2) {past rest : List Moment} {m : Moment}
    (h : s.trace cfg es = past ++ m :: rest) {x : SigRec} (hx : m.out.sig = some x) :
    Uploaded cfg (past ++ [m]) m x := by
  have hgood : ∀ y ∈ s.trace cfg es, Good y.env y.ev := Good.trace hg
  have full : ∀ y ∈ s.trace cfg es, ∀ buf rx, y.ev = .apdu buf rx → buf.length = 260 := by
    intro y hy buf rx he
    have := (hgood y hy).full
    rw [he] at this
    exact this
  have hlen : ∀ buf : Bytes, (slice buf 5 (buf.getD 4 0).toNat).length ≤ 255 := by
    intro buf
    have := slice_length_le buf 5 (buf.getD 4 0).toNat
    have := (buf.getD 4 0).toNat_lt
    omega
  have sess : ∀ {a b m0}, s.trace cfg es = a ++ m0 :: b → UplInv m0.st.upl (sessionIn cfg a) := by
    intro a b m0 ht
    obtain ⟨ea, eb, rfl, _, ha', hm0, _, _⟩ := Dev.trace_split ht
    rw [ha', hm0]
    exact Dev.trace_session (fun e he => hg e (by simp [he])) hi
  have viaReview : ∀ v, Approves m.st m.ev v → v.signs = some (x.digest, x.msg) → Uploaded cfg (past ++ [m]) m x := by
    intro v ha hv
    obtain ⟨a, m0, b, rfl, ho, hb⟩ := Dev.trace_view h h0 ha.view
    obtain ⟨buf, rx, c, p, u, hrec, hop, hp, hmem⟩ := ho.memory
    obtain ⟨acc, q2, first, ref, k, hacc, hcomp, hcv, hpath, hkey⟩ := hop.request hv
    have ht : s.trace cfg es = a ++ m0 :: (b ++ m :: rest) := by rw [h]; simp
    have hf := full m0 (by rw [ht]; simp) buf rx hrec.ev
    rw [apduPayload_full hf] at hcomp
    have hm : isConsensusMagic x.msg = false := by
      generalize x.digest = d, x.msg = msg at hv
      cases hop <;> cases hv <;> rfl
    refine ⟨a, m0, b ++ [m], _, q2, first, by simp, by rw [hrec.packet, hacc]; rfl,
      (hcomp.feed (sess ht) (hlen buf) (hgood m0 (by rw [ht]; simp)).copy (hgood m0 (by rw [ht]; simp)).append).1,
      .inr ⟨hm, v, ho, ha, ?_⟩⟩
    intro y hy
    rcases List.mem_append.mp hy with hy | hy
    · exact (hb y hy).1
    · rw [List.mem_singleton.mp hy]; exact ha.view
  obtain ⟨ea, eb, -, -, -, -, ho, -⟩ := Dev.trace_split h
  rw [ho] at hx
  cases Dev.step_signed hx with
  | review hh p ha _ _ _ _ => exact viaReview _ ha rfl
  | delegation hh br op ha _ _ _ _ => exact viaReview _ ha rfl
  | consensus hh buf rx hrec u q2 first ref hu hcv hp hk hd hs hr b it hb hi =>
    have hf := full m (by rw [h]; simp) buf rx hrec.ev
    rw [apduPayload_full hf] at hu
    exact ⟨_, m, [], _, q2, first, rfl, by rw [hrec.packet]; rfl,
      (hu.feed (sess h) (hlen buf) (hgood m (by rw [h]; simp)).copy (hgood m (by rw [h]; simp)).append).1,
      .inl ⟨consensusItem_magic hi, rfl⟩⟩

/-- C60: along every history, a signature is of a message that was uploaded in one session of packets since the app was
started the last time. -/
theorem C60_uploaded_since_restart (cfg : Config) (new : NewDevice) (hu : new.upload.length = uploadCapacity)
    (es : List (Env × Event)) (hg : ∀ e ∈ es, Good e.1 e.2) (past mid rest : List Moment) (mr m : Moment)
    (h : (Dev.factory new).trace cfg es = past ++ mr :: (mid ++ m :: rest)) (hr : mr.ev = .relaunch) (x : SigRec)
    (hx : m.out.sig = some x) : Uploaded cfg (mid ++ [m]) m x := by
  obtain ⟨ea, eb, rfl, _, rfl, hst, _, hrest⟩ := Dev.trace_split h
  have hn : mr.next cfg = mr.st.relaunch := by
    unfold Moment.next
    rw [hr]
    rfl
  rw [hn] at hrest
  refine uploaded rfl ?_ (fun e he => hg e (by simp [he])) hrest.symm hx
  refine UplInv.init ?_
  have := factory_session (cfg := cfg) hu (es := ea) fun e he => hg e (by simp [he])
  rw [← hst] at this
  exact this.3

/-- C60: the same from the first start. -/
theorem C60_uploaded (cfg : Config) (new : NewDevice) (hu : new.upload.length = uploadCapacity)
    (es : List (Env × Event)) (hg : ∀ e ∈ es, Good e.1 e.2) (past rest : List Moment) (m : Moment)
    (h : (Dev.factory new).trace cfg es = past ++ m :: rest) (x : SigRec)
    (hx : m.out.sig = some x) : Uploaded cfg (past ++ [m]) m x :=
  uploaded rfl (UplInv.init hu) hg h hx

/-- C60: after a restart, buttons have no answer until a request has opened a review. -/
theorem C60_nothing_pending (cfg : Config) (new : NewDevice) (es : List (Env × Event)) (past mid rest : List Moment)
    (mr m : Moment) (h : (Dev.factory new).trace cfg es = past ++ mr :: (mid ++ m :: rest)) (hr : mr.ev = .relaunch)
    (hm : ∀ y ∈ mid, ∀ v, ¬ y.Opens cfg v) (hev : ∀ buf rx, m.ev ≠ .apdu buf rx) :
    m.out.reply = none ∧ m.out.sig = none := by
  obtain ⟨ea, eb, rfl, _, rfl, hst, _, hrest⟩ := Dev.trace_split h
  have hn : mr.next cfg = mr.st.relaunch := by
    unfold Moment.next
    rw [hr]
    rfl
  rw [hn] at hrest
  have hv : m.st.view = none := by
    cases hv : m.st.view with
    | none => rfl
    | some v =>
      obtain ⟨a, m0, b, rfl, ho, _⟩ := Dev.trace_view hrest.symm rfl hv
      exact absurd ho (hm m0 (by simp) v)
  obtain ⟨_, _, _, _, _, _, hout, _⟩ := Dev.trace_split hrest.symm
  have hsig : m.out.sig = none := by
    cases hx : m.out.sig with
    | none => rfl
    | some x =>
      rw [hout] at hx
      cases Dev.step_signed hx with
      | review hh p ha _ _ _ _ => rw [ha.view] at hv; cases hv
      | delegation hh br op ha _ _ _ _ => rw [ha.view] at hv; cases hv
      | consensus hh buf rx hrec => exact absurd hrec.ev (hev buf rx)
  refine ⟨?_, hsig⟩
  cases hx : m.out.reply with
  | none => rfl
  | some r =>
    rw [hout] at hx
    cases he : m.ev with
    | apdu buf rx => exact absurd he (hev buf rx)
    | relaunch => rw [he] at hx; cases hx
    | _ =>
      obtain ⟨⟨v, hv'⟩, -⟩ := Dev.button_reply (by rw [he]; rfl) hx
      rw [hv] at hv'
      cases hv'

namespace Demo

/-- A review of a delegation is opened and paged through to the approval; the app is restarted. The closing packet alone is
refused; the presses that would have approved do nothing; after a new upload the signature is given. -/
def restarted : List (Env × Event) :=
  (signReview 0x04 delegation 11).dropLast ++
    ok [.relaunch, .both, apdu 0x04 0x81 0 delegation, .both] ++ signReview 0x04 delegation 11

set_option maxRecDepth 100000 in
/-- The hypotheses of the theorems of C60 hold in `restarted`. -/
example :
    let t := (Dev.factory ⟨.small, List.replicate uploadCapacity 0⟩).trace walletApp restarted
    (∀ e ∈ restarted, Good e.1 e.2) ∧ (t.drop 13).map (fun m => (m.out.reply, m.out.sig.map SigRec.msg)) =
      [(none, none), (none, none), (some [0x64, 0x00], none), (none, none), (some [0x90, 0x00], none)] ++
        List.replicate 12 (none, none) ++
        [(some (hash 64 (0 :: keyPath.drop 1 ++ hash 32 delegation) ++ [0x90, 0x00]), some delegation)] := by
  decide +kernel

end Demo

end Tezos
