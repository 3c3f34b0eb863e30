import Verif.Spec.Verdicts
import Verif.Props.Served
import Verif.Props.HostTests
import Verif.Props.Work
/-
C111: what a baker gets that asks for one signature after the other, exactly.
-/
namespace Tezos
open Spec

/-- A call that is refused for what it asks for returns this. -/
theorem SigningRequest.refused {js : Js} (hjs : js.ReadsDecimal) {path : Bytes} {curve : UInt8} {message : Bytes} {b : UInt8}
    {k : PathAndCurve} (hk : NamesKey path curve k) {c : SignCall} {us : List (Env × Event)} {env : Env} {ev : Event}
    (h : Calls (SignCall.sign js c path (b :: message)) us env ev) :
    (SignCall.sign js c path (b :: message)).after (us.map (fun _ => [0x90, 0x00]) ++ [[0x69, 0x84]]) =
      some ⟨0x6984, none⟩ := by
  obtain ⟨hp, hlen, hpl⟩ := hk.serialize hjs
  obtain ⟨us', ev', p1, d1, d2, he, hm, hup, hev, hrole, hafter⟩ :=
    SignCall.sign_sends hp (by omega) (by simp) h.packets
  obtain ⟨rfl, he'⟩ := List.append_inj' he rfl
  have hst : statusOf [0x69, 0x84] = 0x6984 := by decide
  have := hafter [0x69, 0x84] (by simp) (by rw [hst]; simp)
  rw [List.length_map] at this
  rw [List.map_const', this, hst]
  unfold SignCall.readAnswer
  rw [if_neg (by rw [hst]; simp)]

/-- One well-formed consensus message, sent in packets of any size: it is signed, and becomes the last one, or refused, and
nothing changes. -/
theorem Flowing.sent {cfg : Config} (hb : cfg.build = .baking) {k : PathAndCurve} {s : Dev} {last : Item} {n : Nat}
    (hs : Flowing s k last n) (hn : n + 1 < 2 ^ 64) {ins : UInt8} (hins : ins ∈ ([0x04, 0x0F, 0xAF] : List UInt8))
    {msg : Bytes} {us : List (Env × Event)} {env : Env} {ev : Event} (hsent : Sent ins k msg us env ev) {it : Item}
    (hit : consensusItem msg = some it) {digest sig : Bytes} (hd : env.cr.blake2b 32 msg = some digest)
    (hsig : env.cr.sign k.curve k.path digest = some sig) (hf : env.mainF = .done) :
    (it.level < 2 ^ 31 ∧ Item.lt last it → (s.run cfg (us ++ [(env, ev)])).2 =
        (us.map fun _ => ⟨some [0x90, 0x00], none, none⟩) ++
          [⟨some ((if ins = 0x04 then [] else digest) ++ sig ++ [0x90, 0x00]),
            some ⟨k.curve, k.path, digest, msg, sig⟩, none⟩] ∧
      Flowing (s.run cfg (us ++ [(env, ev)])).1 k it (n + 1)) ∧
    (¬ (it.level < 2 ^ 31 ∧ Item.lt last it) → (s.run cfg (us ++ [(env, ev)])).2 =
        (us.map fun _ => ⟨some [0x90, 0x00], none, none⟩) ++ [⟨some [0x69, 0x84], none, none⟩] ∧
      Flowing (s.run cfg (us ++ [(env, ev)])).1 k last n) := by
  obtain ⟨hrun, ⟨o, hi⟩, hkey, b, hmain, hlast⟩ := hs
  obtain ⟨p1, p2, q2, d1, d2, rfl, hc, hup, hev, hr⟩ := hsent.ex
  have hfit := hsent.fit
  have hge := hsent.last
  have hg := hsent.flash
  obtain ⟨hcmd, hfam⟩ := command_baking_sign hins
  rw [← hb] at hcmd hfam
  simp only [List.length_append] at hfit
  have hgood := hsent.good
  have hgev : Good env ev := ⟨hge.1, hge.2, hev.full⟩
  have hupl : ∃ o, UplInv (s.run cfg (us ++ [(env, ev)])).1.upl o := ⟨_, Dev.trace_session (o := o) (by
    intro e he
    rcases List.mem_append.mp he with he | he
    · exact hgood e he
    · rw [List.mem_singleton.mp he]; exact hgev) hi⟩
  obtain ⟨u, hui, hrun'⟩ := hup.run hfam hrun hi (by unfold uploadCapacity; omega) hgood
  obtain ⟨buf, hrec, h2, h3, hpl⟩ := hev.received (s := { s with upl := u }) hrun hcmd
  have hfeed : (Spec.feed (some ⟨Accessor.baking, p2, k.path.serialize, d1⟩) ⟨Accessor.baking, p1, q2, d2⟩).2 =
      some (p2, k.path.serialize, d1 ++ d2) := by
    simp only [Spec.feed, hr, true_and]
    rw [if_pos (by unfold uploadCapacity; omega)]
  obtain ⟨u', ref, hcomp⟩ := Completes.of_feed (env := env) (s := { s with upl := u }) hui hev.length hge.1 hge.2 hfeed
  have hpath : Path.read bip32MaxLength k.path.serialize = .ok k.path := by
    rw [Path.read_ok]
    have := hsent.path.2
    exact ⟨hsent.path.1, hsent.path.2, by omega, rfl⟩
  have hstep : ({ s with upl := u } : Dev).step cfg env ev = Res.deliver ((fun f : Res =>
      { f with st := { f.st with upl := f.st.upl.drop .baking } }) (({ s with upl := u' } : Dev).autoSign env
      (decide (ins ≠ 0x04)) digest (d1 ++ d2) (specDecide (d1 ++ d2)))) := by
    rw [hrec.step, h2, h3, hpl]
    simp only [Dev.exec, Dev.cmdUpload, hcomp.eq]
    rw [Dev.bakerSign_auto (s := { s with upl := u' }) (k := k) (digest := digest) (it := it) hc hpath hkey hd hit]
  have hread : s.main.read = .ok b := hmain.read_eq
  have hst : (s.run cfg (us ++ [(env, ev)])).1 = (({ s with upl := u } : Dev).step cfg env ev).1 := by
    rw [Dev.run_append, hrun']; rfl
  have hout : (s.run cfg (us ++ [(env, ev)])).2 = (us.map fun _ => ⟨some [0x90, 0x00], none, none⟩) ++
      [(({ s with upl := u } : Dev).step cfg env ev).2] := by
    rw [Dev.run_append_out, hrun']; rfl
  rw [hst] at hupl
  rw [hst, hout]
  constructor
  · rintro ⟨hl, hlt⟩
    rcases Dev.autoSign_cases env (decide (ins ≠ 0x04)) digest (d1 ++ d2) (specDecide (d1 ++ d2)) { s with upl := u' }
        (fun hw e h => specDecide_error h) with hf' | ⟨b', w, hb', hw, hf' | ⟨hwr, k₁, sig₁, hk₁, hs₁, hres⟩⟩
    · obtain ⟨h1, -⟩ := Dev.autoSign_ok (env := env) (h := decide (ins ≠ 0x04)) (digest := digest)
        (s := { s with upl := u' }) hkey hit hread hl (by rw [hlast]; exact hlt) hf hsig
      obtain ⟨-, -, ⟨e, -, h⟩ | ⟨f, h⟩⟩ := hf' <;> rw [h1] at h <;> cases h
    · obtain ⟨h1, -⟩ := Dev.autoSign_ok (env := env) (h := decide (ins ≠ 0x04)) (digest := digest)
        (s := { s with upl := u' }) hkey hit hread hl (by rw [hlast]; exact hlt) hf hsig
      obtain ⟨-, -, ⟨e, -, h⟩ | ⟨f, h⟩⟩ := hf' <;> rw [h1] at h <;> cases h
    · obtain rfl : b = b' := ReadRes.ok.inj (hread.symm.trans hb')
      obtain rfl : k = k₁ := Option.some.inj (hkey.symm.trans hk₁)
      obtain rfl : sig = sig₁ := Option.some.inj (hsig.symm.trans hs₁)
      have hwi : w = WaterMark.ofItem it := by
        unfold specDecide at hw
        simp only [hit] at hw
        split at hw
        · exact (Except.ok.inj hw).symm
        · cases hw
      rw [hstep] at hupl ⊢
      rw [hres] at hupl ⊢
      refine ⟨?_, hrun, hupl, hkey, w.encode, ?_, ?_⟩
      · by_cases h4 : ins = 0x04
        · simp [Res.deliver, sigReply, statusWord, h4]
          decide
        · simp [Res.deliver, sigReply, statusWord, h4]
          decide
      · have hwr' : (s.main.write .done w.encode).2 = .ok := by rw [← hf]; exact hwr
        obtain ⟨c', g1, g2, -⟩ := hmain.write (f := .done) (b := w.encode) hn
          (by simp only [WaterMark.encode_length, slotSize]) trivial
        obtain rfl : c' = .val w.encode := by
          rcases g2 with ⟨-, g2⟩ | ⟨g2, -⟩
          · exact g2
          · exact absurd hwr' g2
        show (s.main.write env.mainF w.encode).1.Holds _ _
        rw [hf]
        exact g1
      · rw [WaterMark.decode_encode, hwi, WaterMark.item_ofItem hit]
  · intro hno
    have hdec : specDecide (d1 ++ d2) (WaterMark.decode b) = .error (.err .dataInvalid) := by
      unfold specDecide
      simp only [hit]
      rw [if_neg (by rw [hlast]; exact hno)]
    have hauto : ({ s with upl := u' } : Dev).autoSign env (decide (ins ≠ 0x04)) digest (d1 ++ d2)
        (specDecide (d1 ++ d2)) = ⟨{ s with upl := u' }, .err .dataInvalid, none⟩ := by
      unfold Dev.autoSign Dev.withRead
      simp only [hread, hdec]
      rfl
    rw [hstep] at hupl ⊢
    rw [hauto] at hupl ⊢
    exact ⟨by simp [Res.deliver, statusWord]; decide, hrun, hupl, hkey, b, hmain, hlast⟩

/-- One call of `signBaker` and how it is sent: the packets `us` and, at last, `ev`; what the message says, its digest and
the signature. -/
structure BakerCall where
  kind : BakerMessage
  message : Bytes
  call : Client SignResponse
  us : List (Env × Event)
  env : Env
  ev : Event
  item : Item
  digest : Bytes
  sig : Bytes

/-- The events of a call. -/
def BakerCall.events (x : BakerCall) : List (Env × Event) := x.us ++ [(x.env, x.ev)]

/-- It is the call of `signBaker` for this key and a well-formed consensus message that fits the buffer, the memory and the
keys of the device work, and digest and signature are those of the message. -/
structure BakerCall.Proper (js : Js) (path : Bytes) (curve : UInt8) (k : PathAndCurve) (x : BakerCall) : Prop where
  call : signBaker js path curve x.message x.kind = some x.call
  sent : Calls x.call x.us x.env x.ev
  message : ∃ b, x.kind.magic x.message = some b ∧ consensusItem (b :: x.message) = some x.item ∧
    x.env.cr.blake2b 32 (b :: x.message) = some x.digest
  fit : x.message.length ≤ 8172
  sig : x.env.cr.sign k.curve k.path x.digest = some x.sig
  sized : x.env.cr.Sized
  flash : x.env.mainF = .done

/-- The calls made one after the other return these results. -/
def Dev.Returns (cfg : Config) : Dev → List BakerCall → List SignResponse → Prop
  | _, [], rs => rs = []
  | s, x :: xs, rs => ∃ r rs', rs = r :: rs' ∧ Talk x.call (s.trace cfg x.events) r ∧
      Dev.Returns cfg (s.run cfg x.events).1 xs rs'

/-- What a call must return, signed or refused. -/
def BakerCall.result (x : BakerCall) (ok : Bool) : SignResponse :=
  if ok then ⟨0x9000, some (x.digest, x.sig)⟩ else ⟨0x6984, none⟩

theorem Flowing.returns {cfg : Config} (hb : cfg.build = .baking) {js : Js} (hjs : js.ReadsDecimal) {path : Bytes}
    {curve : UInt8} {k : PathAndCurve} (hk : NamesKey path curve k) {xs : List BakerCall}
    (hxs : ∀ x ∈ xs, x.Proper js path curve k) {s : Dev} {last : Item} {n : Nat} (hs : Flowing s k last n)
    (hn : n + xs.length < 2 ^ 64) :
    s.Returns cfg xs (List.zipWith BakerCall.result xs (verdicts last (xs.map BakerCall.item))) := by
  induction xs generalizing s last n with
  | nil => rfl
  | cons x xs ih =>
    simp only [List.length_cons] at hn
    have hx := hxs x (by simp)
    have hxs' : ∀ y ∈ xs, y.Proper js path curve k := fun y hy => hxs y (by simp [hy])
    obtain ⟨b, hmag, hit, hd⟩ := hx.message
    have hcall : x.call = SignCall.sign js ⟨0xaf, false, true, curve⟩ path (b :: x.message) := by
      have := hx.call
      simp only [signBaker, hmag, Option.map_some, Option.some.injEq] at this
      exact this.symm
    have hsent := hx.sent
    rw [hcall] at hsent
    obtain ⟨hse, haf⟩ := SigningRequest.sent (c := ⟨0xaf, false, true, curve⟩) hjs hk hx.fit rfl rfl hsent
    have href := SigningRequest.refused hjs hk hsent
    obtain ⟨h1, h2⟩ := hs.sent hb (by omega) (by simp) hse hit hd hx.sig hx.flash
    by_cases hv : x.item.level < 2 ^ 31 ∧ Item.lt last x.item
    · obtain ⟨ho, hfl⟩ := h1 hv
      rw [if_neg (by simp)] at ho
      simp only [List.map_cons, verdicts, if_pos hv, List.zipWith_cons_cons]
      refine ⟨_, _, rfl, ?_, ih hxs' hfl (by omega)⟩
      rw [hcall]
      exact Talk.at_once hsent.packets ho (haf _ _ (hx.sized.blake2b hd))
    · obtain ⟨ho, hfl⟩ := h2 hv
      simp only [List.map_cons, verdicts, if_neg hv, List.zipWith_cons_cons]
      refine ⟨_, _, rfl, ?_, ih hxs' hfl (by omega)⟩
      rw [hcall]
      exact Talk.at_once hsent.packets ho href

/-- **C111.** From every reachable state in which the key is authorized and the last item signed was `last`, a baker that
asks for the signatures of any sequence of well-formed consensus messages, one after the other, gets exactly those of the
messages that are above all signed before and of a level below `2 ^ 31`: each such call returns the digest and the
signature, and every other call the status word 0x6984 and nothing else. -/
theorem C111_session (cfg : Config) (hb : cfg.build = .baking) (new : NewDevice)
    (hu : new.upload.length = uploadCapacity) (es : List (Env × Event)) (hes : ∀ e ∈ es, Kind e.1 e.2 ∧ Good e.1 e.2)
    (s : Dev) (hs : s = ((Dev.factory new).run cfg es).1) (hrun : s.running = true) (js : Js) (hjs : js.ReadsDecimal)
    (path : Bytes) (curve : UInt8) (k : PathAndCurve) (hk : NamesKey path curve k) (hkey : s.storedKey = some k)
    (b : Bytes) (hread : s.main.read = .ok b) (last : Item) (hlast : (WaterMark.decode b).item = last)
    (xs : List BakerCall) (hxs : ∀ x ∈ xs, x.Proper js path curve k) (hlen : es.length + xs.length < 2 ^ 64) :
    s.Returns cfg xs (List.zipWith BakerCall.result xs (verdicts last (xs.map BakerCall.item))) := by
  have ht := Dev.Takes.of_history (cfg := cfg) hu (fun x hx => (hes x hx).1) (by omega)
  have hi : UplInv s.upl _ := hs ▸ factory_session (cfg := cfg) hu fun e h => (hes e h).2
  rw [← hs] at ht
  obtain ⟨c, hc⟩ := ht.mark .main
  have hv : c = .val b := by
    have : s.main.read = c.readRes := hc.read_eq
    rw [hread] at this
    cases c with
    | val b' => cases this; rfl
    | blank => cases this
    | broken => cases this
  rw [hv] at hc
  exact Flowing.returns hb hjs hk hxs (n := es.length) ⟨hrun, ⟨_, hi⟩, hkey, b, hc, hlast⟩ (by omega)

/-- The watermark stays what it was if the device was offered no consensus message. -/
theorem mark_kept {cfg : Config} {new : NewDevice} (hu : new.upload.length = uploadCapacity)
    {ea : List (Env × Event)} {e0 : Env × Event} {m0 : Moment} (hat : At cfg new ea e0 m0) {b0 : Bytes}
    (hb0 : (m0.next cfg).main.read = .ok b0) (eb : List (Env × Event))
    (hes : ∀ e ∈ ea ++ e0 :: eb, Kind e.1 e.2 ∧ Good e.1 e.2) (hlen : (ea ++ e0 :: eb).length < 2 ^ 64)
    (hcl : ∀ it, Clear cfg ((Dev.factory new).trace cfg ea) m0 ((m0.next cfg).trace cfg eb) it) :
    ((Dev.factory new).run cfg (ea ++ e0 :: eb)).1.main.read = .ok b0 := by
  induction eb using list_snoc_induction with
  | nil => rw [hat.run]; exact hb0
  | snoc eb e ih =>
    have hsub : ∀ x ∈ ea ++ e0 :: eb, x ∈ ea ++ e0 :: (eb ++ [e]) := by
      intro x hx
      simp only [List.mem_append, List.mem_cons] at hx ⊢
      rcases hx with h | h | h
      · exact .inl h
      · exact .inr (.inl h)
      · exact .inr (.inr (.inl h))
    rw [Dev.trace_append] at hcl
    have hb := ih (fun x hx => hes x (hsub x hx)) (by simp at hlen ⊢; omega) fun it => (hcl it).prefix
    have hst := hat.run eb
    generalize hs : ((Dev.factory new).run cfg (ea ++ e0 :: eb)).1 = s at hb hst
    have hlast : (s.trace cfg [e]) = [⟨s, e.1, e.2, (s.step cfg e.1 e.2).2⟩] := rfl
    generalize hm : (⟨s, e.1, e.2, (s.step cfg e.1 e.2).2⟩ : Moment) = m at hlast
    have hms : m.st = s := by rw [← hm]
    have hmn : ((Dev.factory new).run cfg (ea ++ e0 :: (eb ++ [e]))).1 = m.next cfg := by
      rw [hat.run, Dev.run_append, ← hst, ← hm]
      rfl
    have h := hat.trace (eb ++ [e])
    rw [Dev.trace_append cfg (m0.next cfg), ← hst, hlast] at h
    rw [← hst, hlast] at hcl
    have h' : (Dev.factory new).trace cfg (ea ++ e0 :: (eb ++ [e])) =
        ((Dev.factory new).trace cfg ea ++ m0 :: (m0.next cfg).trace cfg eb) ++ m :: [] := by
      rw [h]; simp
    rw [hmn]
    rw [← hms] at hb
    by_cases hch : (m.next cfg).main.read = m.st.main.read
    · exact hch.trans hb
    · have hov := (hcl ⟨0, 0, 0, 0⟩).kept m (by simp)
      rcases C51_changes_by_approval_or_signature_partial cfg new _ (fun x hx => (hes x hx).1.mark .main) hlen _ _ m h' hch
        with ⟨buf, rx, hr⟩ | ⟨k', a', l', t', ch', hr⟩ | ⟨b1, msg, j, hb1, hask, hres, -⟩
      · exact absurd (.reset buf rx hr) hov
      · exact absurd (.setup k' a' l' t' ch' hr) hov
      · obtain ⟨⟨hh, buf, rx, u, q2, first, ref, hrec, hcomp⟩, hi, -⟩ := hask
        refine absurd ((hcl j).lower _ m [] rfl msg j ⟨hrec.running, ?_⟩ hi) (Item.lt_irrefl j)
        have hg := (hes e (by simp)).2
        have hev : m.ev = e.2 := by rw [← hm]
        have henv : m.env = e.1 := by rw [← hm]
        have hf : buf.length = 260 := by
          have := hg.full
          rw [← hev, hrec.ev] at this
          exact this
        rw [apduPayload_full hf] at hcomp
        have hsess : UplInv m.st.upl (sessionIn cfg ((Dev.factory new).trace cfg ea ++ m0 ::
            (m0.next cfg).trace cfg eb)) := by
          rw [← hat.trace, hms, ← hs]
          exact Dev.trace_session (fun x hx => (hes x (hsub x hx)).2) (UplInv.init hu)
        exact ⟨_, q2, first, by rw [hrec.packet]; rfl, rfl, (hcomp.feed hsess (by
          have := slice_length_le buf 5 (buf.getD 4 0).toNat
          have := (buf.getD 4 0).toNat_lt
          omega) (by rw [henv]; exact hg.copy) (by rw [henv]; exact hg.append)).1⟩

/-- **C111, levels.** The same from a level that was set by a reset or a setup, whatever happened since, if no other level
was set and the device was offered no consensus message: the last item is that of an Emmy block of this level. -/
theorem C111_from_level (cfg : Config) (hb : cfg.build = .baking) (new : NewDevice)
    (hu : new.upload.length = uploadCapacity) (es : List (Env × Event)) (hes : ∀ e ∈ es, Kind e.1 e.2 ∧ Good e.1 e.2)
    (past mid : List Moment) (m0 : Moment) (h : (Dev.factory new).trace cfg es = past ++ m0 :: mid) (l : UInt32)
    (hset : SetsLevel cfg m0 l) (hcl : ∀ it, Clear cfg past m0 mid it)
    (s : Dev) (hs : s = ((Dev.factory new).run cfg es).1) (hrun : s.running = true) (js : Js) (hjs : js.ReadsDecimal)
    (path : Bytes) (curve : UInt8) (k : PathAndCurve) (hk : NamesKey path curve k) (hkey : s.storedKey = some k)
    (xs : List BakerCall) (hxs : ∀ x ∈ xs, x.Proper js path curve k) (hlen : es.length + xs.length < 2 ^ 64) :
    s.Returns cfg xs
      (List.zipWith BakerCall.result xs (verdicts ⟨0, l.toNat, 0, 0⟩ (xs.map BakerCall.item))) := by
  obtain ⟨n, c, hn, hc, -, hf, ho'⟩ := moment_mark .main (fun e he => (hes e he).1.mark .main) (by omega) h
  have hb0 := (hset.main ho' hc hf hn).read_eq
  obtain ⟨ea, eb, rfl, -, rfl, hst, ho, hmid⟩ := Dev.trace_split h
  have hat : At cfg new ea (m0.env, m0.ev) m0 := ⟨by rw [← hst, ← ho]⟩
  rw [hmid] at hcl
  have hr := mark_kept hu hat hb0 eb hes (by omega) hcl
  rw [← hs] at hr
  refine C111_session cfg hb new hu _ hes s hs hrun js hjs path curve k hk hkey _ hr _ ?_ xs hxs hlen
  simp only [hwmBytes, WaterMark.decode_encode, WaterMark.reset, WaterMark.item]
  rfl

end Tezos
