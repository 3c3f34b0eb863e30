import Verif.Props.Granted
/-
C86: after a setup the device signs whatever is higher than everything it was asked to sign since.
-/
set_option linter.unusedSimpArgs false
set_option linter.unusedVariables false
namespace Tezos
open Spec

/-- The event completes the upload of this message for the baking commands; `past` is the history before it. -/
structure Offers (cfg : Config) (past : List Moment) (m : Moment) (msg : Bytes) : Prop where
  running : m.st.running = true
  packet : ∃ k q2 first, m.ev.packet cfg.build = some k ∧ k.family = .baking ∧
    (feed (sessionIn cfg past) k).2 = some (q2, first, msg)

/-- What happened since `m0` leaves the way for a message about `it`: no watermark was set by a reset or a setup, and every
consensus message the device was asked to sign was about a lower item. -/
structure Clear (cfg : Config) (past : List Moment) (m0 : Moment) (mid : List Moment) (it : Item) : Prop where
  kept : ∀ m ∈ mid, ¬ Overrides cfg m.st m.ev
  lower : ∀ a m b, mid = a ++ m :: b → ∀ msg j, Offers cfg (past ++ m0 :: a) m msg → consensusItem msg = some j →
    Item.lt j it

theorem Clear.prefix {cfg : Config} {past : List Moment} {m0 : Moment} {a b : List Moment} {it : Item}
    (h : Clear cfg past m0 (a ++ b) it) : Clear cfg past m0 a it where
  kept m hm := h.kept m (by simp [hm])
  lower c m d hc := h.lower c m (d ++ b) (by rw [hc]; simp)

/-- The history up to `m0`, then further events. -/
structure At (cfg : Config) (new : NewDevice) (ea : List (Env × Event)) (e0 : Env × Event) (m0 : Moment) : Prop where
  eq : m0 = ⟨((Dev.factory new).run cfg ea).1, e0.1, e0.2, (((Dev.factory new).run cfg ea).1.step cfg e0.1 e0.2).2⟩

theorem At.trace {cfg : Config} {new : NewDevice} {ea : List (Env × Event)} {e0 : Env × Event} {m0 : Moment}
    (h : At cfg new ea e0 m0) (eb : List (Env × Event)) : (Dev.factory new).trace cfg (ea ++ e0 :: eb) =
      (Dev.factory new).trace cfg ea ++ m0 :: (m0.next cfg).trace cfg eb := by
  rw [Dev.trace_append, h.eq]
  rfl

theorem At.run {cfg : Config} {new : NewDevice} {ea : List (Env × Event)} {e0 : Env × Event} {m0 : Moment}
    (h : At cfg new ea e0 m0) (eb : List (Env × Event)) :
    ((Dev.factory new).run cfg (ea ++ e0 :: eb)).1 = ((m0.next cfg).run cfg eb).1 := by
  rw [Dev.run_append, h.eq]
  rfl

theorem Kind.mark {env : Env} {ev : Event} (h : Kind env ev) (r : Mark) : (env.markF r).Sound := by
  cases r
  · exact h.main.sound
  · exact h.test.sound
  · exact h.chain.sound

/-- A watermark that was set to a level is below every item of a higher level. -/
theorem reset_lt {l : UInt32} {it : Item} (h : l.toNat < it.level) :
    Item.lt (WaterMark.decode (hwmBytes l)).item it := by
  simp only [hwmBytes, WaterMark.decode_encode, WaterMark.reset, WaterMark.item, Item.lt]
  rcases Nat.eq_zero_or_pos it.family with h0 | h0
  · exact .inr (.inl ⟨h0.symm, h⟩)
  · exact .inl h0

/-- The key stays what it was at `m0`. -/
theorem key_since {cfg : Config} {new : NewDevice} {ea : List (Env × Event)} {e0 : Env × Event} {m0 : Moment}
    (hat : At cfg new ea e0 m0) {k : PathAndCurve} (hk : (m0.next cfg).storedKey = some k) (eb : List (Env × Event))
    (hes : ∀ e ∈ ea ++ e0 :: eb, Kind e.1 e.2) (hlen : (ea ++ e0 :: eb).length < 2 ^ 64)
    (hkept : ∀ m ∈ (m0.next cfg).trace cfg eb, ∀ v, Approves m.st m.ev v → v.keyChange = none) :
    ((Dev.factory new).run cfg (ea ++ e0 :: eb)).1.storedKey = some k := by
  induction eb using list_snoc_induction with
  | nil => rw [hat.run]; exact hk
  | snoc eb e ih =>
    have hsub : ∀ x ∈ ea ++ e0 :: eb, x ∈ ea ++ e0 :: (eb ++ [e]) := by
      intro x hx
      simp only [List.mem_append, List.mem_cons] at hx ⊢
      rcases hx with h | h | h
      · exact .inl h
      · exact .inr (.inl h)
      · exact .inr (.inr (.inl h))
    have htr := hat.trace (eb ++ [e])
    have hrun : ((Dev.factory new).run cfg (ea ++ e0 :: (eb ++ [e]))).1 =
        ((((m0.next cfg).run cfg eb).1.run cfg [e])).1 := by rw [hat.run, Dev.run_append]
    rw [Dev.trace_append cfg (m0.next cfg)] at hkept htr
    have hk := ih (fun x hx => hes x (hsub x hx)) (by simp at hlen ⊢; omega) fun m hm => hkept m (by simp [hm])
    rw [hat.run] at hk
    generalize ((m0.next cfg).run cfg eb).1 = s at hk htr hrun hkept
    have hm := hkept ⟨s, e.1, e.2, (s.step cfg e.1 e.2).2⟩ (by simp [Dev.trace])
    rw [hrun]
    by_contra hne
    obtain ⟨v, o, hv, ho, -⟩ := C50_key_changes_by_approval cfg new _ (fun x hx => (hes x hx).key.detected) hlen
      ((Dev.factory new).trace cfg ea ++ m0 :: (m0.next cfg).trace cfg eb) [] ⟨s, e.1, e.2, (s.step cfg e.1 e.2).2⟩
      (by rw [htr]; simp [Dev.trace]) (fun h => hne (h.trans hk))
    rw [hm v hv] at ho
    cases ho

/-- The watermark stays below every item above those the device was offered. -/
theorem mark_since {cfg : Config} {new : NewDevice} (hu : new.upload.length = uploadCapacity)
    {ea : List (Env × Event)} {e0 : Env × Event} {m0 : Moment} (hat : At cfg new ea e0 m0) {it : Item} {b0 : Bytes}
    (hb0 : (m0.next cfg).main.read = .ok b0) (hlt0 : Item.lt (WaterMark.decode b0).item it) (eb : List (Env × Event))
    (hes : ∀ e ∈ ea ++ e0 :: eb, Kind e.1 e.2 ∧ Good e.1 e.2) (hlen : (ea ++ e0 :: eb).length < 2 ^ 64)
    (hcl : Clear cfg ((Dev.factory new).trace cfg ea) m0 ((m0.next cfg).trace cfg eb) it) :
    ∃ b, ((Dev.factory new).run cfg (ea ++ e0 :: eb)).1.main.read = .ok b ∧ Item.lt (WaterMark.decode b).item it := by
  induction eb using list_snoc_induction with
  | nil => rw [hat.run]; exact ⟨b0, hb0, hlt0⟩
  | snoc eb e ih =>
    have hsub : ∀ x ∈ ea ++ e0 :: eb, x ∈ ea ++ e0 :: (eb ++ [e]) := by
      intro x hx
      simp only [List.mem_append, List.mem_cons] at hx ⊢
      rcases hx with h | h | h
      · exact .inl h
      · exact .inr (.inl h)
      · exact .inr (.inr (.inl h))
    rw [Dev.trace_append] at hcl
    obtain ⟨b, hb, hlt⟩ := ih (fun x hx => hes x (hsub x hx)) (by simp at hlen ⊢; omega) hcl.prefix
    have hst := hat.run eb
    generalize hs : ((Dev.factory new).run cfg (ea ++ e0 :: eb)).1 = s at hb hst
    have hlast : (s.trace cfg [e]) = [⟨s, e.1, e.2, (s.step cfg e.1 e.2).2⟩] := rfl
    generalize hm : (⟨s, e.1, e.2, (s.step cfg e.1 e.2).2⟩ : Moment) = m at hlast
    have hms : m.st = s := by rw [← hm]
    have hmn : ((Dev.factory new).run cfg (ea ++ e0 :: (eb ++ [e]))).1 = m.next cfg := by
      rw [hat.run, Dev.run_append, ← hst, ← hm]
      rfl
    have h := hat.trace (eb ++ [e])
    rw [Dev.trace_append cfg (m0.next cfg), ← hst, hlast] at h
    rw [← hst, hlast] at hcl
    have hov := hcl.kept m (by simp)
    have h' : (Dev.factory new).trace cfg (ea ++ e0 :: (eb ++ [e])) =
        ((Dev.factory new).trace cfg ea ++ m0 :: (m0.next cfg).trace cfg eb) ++ m :: [] := by
      rw [h]; simp
    rw [hmn]
    rw [← hms] at hb
    by_cases hch : (m.next cfg).main.read = m.st.main.read
    · exact ⟨b, hch.trans hb, hlt⟩
    · rcases C51_changes_by_approval_or_signature_partial cfg new _ (fun x hx => (hes x hx).1.mark .main) hlen _ _ m h' hch
        with ⟨buf, rx, hr⟩ | ⟨k', a', l', t', ch', hr⟩ | ⟨b1, msg, j, hb1, hask, hres, -⟩
      · exact absurd (.reset buf rx hr) hov
      · exact absurd (.setup k' a' l' t' ch' hr) hov
      · have hj : Item.lt j it := by
          obtain ⟨⟨hh, buf, rx, u, q2, first, ref, hrec, hcomp⟩, hi, -⟩ := hask
          refine hcl.lower _ m [] rfl msg j ⟨hrec.running, ?_⟩ hi
          have hg := (hes e (by simp)).2
          have hev : m.ev = e.2 := by rw [← hm]
          have henv : m.env = e.1 := by rw [← hm]
          have hf : buf.length = 260 := by
            have := hg.full
            rw [← hev, hrec.ev] at this
            exact this
          rw [apduPayload_full hf] at hcomp
          have hsess : UplInv m.st.upl (sessionIn cfg ((Dev.factory new).trace cfg ea ++ m0 ::
              (m0.next cfg).trace cfg eb)) := by
            rw [← hat.trace, hms, ← hs]
            exact Dev.trace_session (fun x hx => (hes x (hsub x hx)).2) (UplInv.init hu)
          exact ⟨_, q2, first, by rw [hrec.packet]; rfl, rfl, (hcomp.feed hsess (by
            have := slice_length_le buf 5 (buf.getD 4 0).toNat
            have := (buf.getD 4 0).toNat_lt
            omega) (by rw [henv]; exact hg.copy) (by rw [henv]; exact hg.append)).1⟩
        rcases hres with ⟨b', hb', hit⟩ | ⟨hp, -⟩
        · exact ⟨b', hb', by rw [hit]; exact hj⟩
        · have ht := Dev.Takes.of_history (cfg := cfg) hu (fun x hx => (hes x hx).1) hlen
          rw [hmn] at ht
          exact absurd hp ht.solid.main.read

/-- The host asks in the state `s` for a signature of the message, and the device gives it: each packet is acknowledged, and
the last one is answered with the signature. -/
def SignsAtOnce (cfg : Config) (s : Dev) (k : PathAndCurve) (msg : Bytes) : Prop :=
  ∀ ins ∈ [0x04, 0x0F, 0xAF], ∀ (us : List (Env × Event)) (env : Env) (ev : Event), Sent ins k msg us env ev →
    ∀ digest sig, env.cr.blake2b 32 msg = some digest → env.cr.sign k.curve k.path digest = some sig →
    env.mainF = .done →
    (s.run cfg (us ++ [(env, ev)])).2 = (us.map fun _ => ⟨some [0x90, 0x00], none, none⟩) ++
      [⟨some ((if ins = 0x04 then [] else digest) ++ sig ++ [0x90, 0x00]),
        some ⟨k.curve, k.path, digest, msg, sig⟩, none⟩]

/-- C86, levels: whatever happened since a reset or a setup was answered with success - other commands, uploads, reviews,
button presses, restarts, loss of power - a consensus message above the level set and above every one the device was asked
to sign since is signed at once, if its key is the authorized one. -/
theorem C86_above_all_since_level (cfg : Config) (hcfg : cfg.build = .baking) (new : NewDevice)
    (hu : new.upload.length = uploadCapacity) (es : List (Env × Event)) (hes : ∀ e ∈ es, Kind e.1 e.2 ∧ Good e.1 e.2)
    (hlen : es.length < 2 ^ 64) (past mid : List Moment) (m0 : Moment)
    (h : (Dev.factory new).trace cfg es = past ++ m0 :: mid) (l : UInt32) (hset : SetsLevel cfg m0 l) (msg : Bytes)
    (it : Item) (hit : consensusItem msg = some it) (hl : it.level < 2 ^ 31) (hnew : l.toNat < it.level)
    (hcl : Clear cfg past m0 mid it) (s : Dev) (hs : s = ((Dev.factory new).run cfg es).1) (hrun : s.running = true)
    (k : PathAndCurve) (hk : s.storedKey = some k) : SignsAtOnce cfg s k msg := by
  obtain ⟨n, c, hn, hc, -, hf, ho'⟩ := moment_mark .main (fun e he => (hes e he).1.mark .main) hlen h
  have hb0 := (hset.main ho' hc hf hn).read_eq
  obtain ⟨ea, eb, rfl, -, rfl, hst, ho, hmid⟩ := Dev.trace_split h
  have hat : At cfg new ea (m0.env, m0.ev) m0 := ⟨by rw [← hst, ← ho]⟩
  rw [hmid] at hcl
  obtain ⟨b, hb, hlt⟩ := mark_since hu hat hb0 (reset_lt hnew) eb hes hlen hcl
  rw [← hs] at hb
  intro ins hins us env ev hsent digest sig hd hsig hf
  obtain ⟨p1, p2, q2, d1, d2, rfl, hc, hup, hcar, hr⟩ := hsent.ex
  exact C14_fresh_message_is_signed cfg hcfg new hu _ (fun e he => (hes e he).2) s hs ins hins p1 p2 q2 k _ d1 d2 it
    ⟨hrun, hk, hit, hl, b, hb, hlt⟩ hc rfl hsent.path hsent.fit us env ev hsent.flash hsent.last hup hcar hr digest sig hd
    hsig hf

/-- C86, setup: and the key is still that of a setup unless the user approved a change of it. -/
theorem C86_above_all_since_setup (cfg : Config) (hcfg : cfg.build = .baking) (new : NewDevice)
    (hu : new.upload.length = uploadCapacity) (es : List (Env × Event)) (hes : ∀ e ∈ es, Kind e.1 e.2 ∧ Good e.1 e.2)
    (hlen : es.length < 2 ^ 64) (past mid : List Moment) (m0 : Moment)
    (h : (Dev.factory new).trace cfg es = past ++ m0 :: mid) (k : PathAndCurve) (a : Addr) (l t : UInt32) (ch : ChainID)
    (ha : Approves m0.st m0.ev (.setup k a l t ch)) (hsu : m0.Success) (msg : Bytes) (it : Item)
    (hit : consensusItem msg = some it) (hl : it.level < 2 ^ 31) (hnew : l.toNat < it.level)
    (hcl : Clear cfg past m0 mid it) (hkept : ∀ m ∈ mid, ∀ v, Approves m.st m.ev v → v.keyChange = none) (s : Dev)
    (hs : s = ((Dev.factory new).run cfg es).1) (hrun : s.running = true) : SignsAtOnce cfg s k msg := by
  have hset : SetsLevel cfg m0 l := by
    obtain ⟨d, hd⟩ := hsu
    exact .setup k a t ch ha d hd
  refine C86_above_all_since_level cfg hcfg new hu es hes hlen past mid m0 h l hset msg it hit hl hnew hcl s hs hrun k ?_
  have hk := (C48_setup_takes_effect cfg new _ (fun e he => ⟨(hes e he).1.key.detected, (hes e he).1.mark⟩) hlen _ _ _ h k a
    l t ch ha hsu _ (.inl rfl)).1
  obtain ⟨ea, eb, rfl, -, rfl, hst, ho, hmid⟩ := Dev.trace_split h
  have hat : At cfg new ea (m0.env, m0.ev) m0 := ⟨by rw [← hst, ← ho]⟩
  rw [hmid] at hkept
  rw [hs]
  exact key_since hat hk eb (fun e he => (hes e he).1) hlen hkept

namespace Demo

/-- The item of the consensus message whose upload the event completes. -/
def asked (cfg : Config) (past : List Moment) (m : Moment) : Option Item :=
  (m.ev.packet cfg.build).bind fun k =>
    if k.family = .baking then ((feed (sessionIn cfg past) k).2).bind fun r => consensusItem r.2.2 else none

theorem clear_of_check {cfg : Config} {past : List Moment} {m0 : Moment} {mid : List Moment} {it : Item}
    (h1 : ∀ m ∈ mid, ¬ Overrides cfg m.st m.ev)
    (h2 : ∀ i < mid.length, ∀ m ∈ mid[i]?, ∀ j ∈ asked cfg (past ++ m0 :: mid.take i) m, Item.lt j it) :
    Clear cfg past m0 mid it where
  kept := h1
  lower a m b hmid msg j ho hj := by
    obtain ⟨k, q2, first, hk, hf, hfd⟩ := ho.packet
    refine h2 a.length (by rw [hmid]; simp) m (by rw [hmid]; simp) j ?_
    have : mid.take a.length = a := by rw [hmid]; simp
    rw [this]
    simp [asked, hk, hf, hfd, hj]

/-- A baker at work: a block at level 7 is signed after a setup at level 5; the app is restarted; the user turns pages; an
endorsement at level 7 is signed; a lower block is refused. -/
def atWork : List (Env × Event) :=
  sign (emmyBlock 7) ++ ok [.relaunch, .right] ++ sign (emmyEndorsement 7) ++ sign (emmyBlock 6)

theorem block_sent (l : UInt32) : Sent 0x0F key (emmyBlock l) (ok [apdu 0x0F 0 0 keyPath]) fine
    (apdu 0x0F 0x81 0 (emmyBlock l)) where
  ex := ⟨0x81, 0, 0, [], emmyBlock l, rfl, by decide, ⟨by decide, apdu_carries _ _ _ _ (by decide), .nil⟩,
    apdu_carries _ _ _ _ (by simp only [emmyBlock, mainnet, List.length_append, List.length_cons, List.length_nil, be32_length,
      List.length_replicate]; omega), by decide⟩
  path := by decide
  fit := by
    simp only [emmyBlock, mainnet, List.length_append, List.length_cons, List.length_nil, be32_length,
      List.length_replicate, key, Path.serialize]
    decide
  flash := by simp [ok, fine]
  last := ⟨rfl, rfl⟩

/-- The user approves the setup. -/
def approval : Moment :=
  let s := ((Dev.factory newSmall).run bakingApp (setup 5).dropLast).1
  ⟨s, fine, .both, (s.step bakingApp fine .both).2⟩

/-- The view is the review of the setup of `key` at level 5. -/
def isSetup5 : Option View → Bool
  | some (.setup k _ l _ _) => decide (k = key ∧ l = 5)
  | _ => false

theorem isSetup5_ex {v : Option View} (h : isSetup5 v = true) : ∃ a t ch, v = some (.setup key a 5 t ch) := by
  cases v with
  | none => cases h
  | some w =>
    cases w with
    | setup k a l t ch =>
      obtain ⟨h1, h2⟩ := of_decide_eq_true h
      rw [h1, h2]
      exact ⟨a, t, ch, rfl⟩
    | _ => cases h

set_option maxRecDepth 100000 in
/-- `C86_above_all_since_setup` for a block at level 8. -/
example : ∃ sig, (((Dev.factory newSmall).run bakingApp (setup 5 ++ atWork)).1.run bakingApp
      (ok [apdu 0x0F 0 0 keyPath] ++ [(fine, apdu 0x0F 0x81 0 (emmyBlock 8))])).2 =
    [⟨some [0x90, 0x00], none, none⟩, ⟨some (hash 32 (emmyBlock 8) ++ sig ++ [0x90, 0x00]),
      some ⟨.ed25519, key.path, hash 32 (emmyBlock 8), emmyBlock 8, sig⟩, none⟩] := by
  have hfull : ∀ e ∈ setup 5 ++ atWork, e.2.Full := by decide +kernel
  have hfine : ∀ e ∈ setup 5 ++ atWork, e.1 = fine := by
    simp [setup, atWork, sign, ok]
  have hes : ∀ e ∈ setup 5 ++ atWork, Kind e.1 e.2 ∧ Good e.1 e.2 := by
    intro e he
    rw [hfine e he]
    exact ⟨fine_kind _ (hfull e he), rfl, rfl, hfull e he⟩
  obtain ⟨a, t, ch, ha⟩ := isSetup5_ex (v := approved approval.st approval.ev) (by decide +kernel)
  have hr : approval.out.reply.map (fun r => r.drop (r.length - 2)) = some [0x90, 0x00] := by decide +kernel
  obtain ⟨r, hr1, hr2⟩ := Option.map_eq_some_iff.mp hr
  have hsp := List.take_append_drop (r.length - 2) r
  rw [hr2] at hsp
  have htr : (Dev.factory newSmall).trace bakingApp (setup 5 ++ atWork) =
      (Dev.factory newSmall).trace bakingApp (setup 5).dropLast ++ approval ::
        (approval.next bakingApp).trace bakingApp atWork := by
    have e : setup 5 ++ atWork = (setup 5).dropLast ++ (fine, Event.both) :: atWork := by
      simp [setup, ok, List.dropLast]
    rw [e, Dev.trace_append]
    rfl
  have hcl : Clear bakingApp ((Dev.factory newSmall).trace bakingApp (setup 5).dropLast) approval
      ((approval.next bakingApp).trace bakingApp atWork) ⟨0, 8, 0, 0⟩ :=
    clear_of_check (by decide +kernel) (by decide +kernel)
  have hkept : ∀ m ∈ (approval.next bakingApp).trace bakingApp atWork, ∀ v, Approves m.st m.ev v → v.keyChange = none := by
    have hk : ∀ m ∈ (approval.next bakingApp).trace bakingApp atWork,
        (approved m.st m.ev).bind View.keyChange = none := by decide +kernel
    intro m hm v hv
    have := hk m hm
    rw [(approved_iff _ _ _).mpr hv] at this
    exact this
  have hrun : ((Dev.factory newSmall).run bakingApp (setup 5 ++ atWork)).1.running = true := by decide +kernel
  refine ⟨_, C86_above_all_since_setup bakingApp rfl newSmall (by decide +kernel) (setup 5 ++ atWork) hes (by decide)
    _ _ _ htr key a 5 t ch ((approved_iff _ _ _).mp ha) ⟨_, by rw [hsp]; exact hr1⟩ (emmyBlock 8) ⟨0, 8, 0, 0⟩
    (by decide +kernel) (by decide) (by decide) hcl hkept _ rfl hrun 0x0F (by decide) _ fine _ (block_sent 8) _ _ rfl rfl
    rfl⟩

end Demo

end Tezos
