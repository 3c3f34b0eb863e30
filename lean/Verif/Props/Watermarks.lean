import Verif.Scenario
/-
The watermark along histories of the device: C01 to C08.
-/
set_option linter.unusedSimpArgs false
namespace Tezos
open Spec (Item consensusItem isConsensusMagic)

theorem consensusItem_magic {m : Bytes} {it : Item} (h : consensusItem m = some it) : isConsensusMagic m = true := by
  unfold consensusItem at h
  unfold isConsensusMagic
  split at h
  · cases h
  · rename_i b hb
    simp only [hb]
    repeat' split at h
    all_goals first
      | (cases h; done)
      | simp_all

/-! ### The watermark never goes back -/

/-- The record protects everything up to and including `it`, or cannot be read any more. -/
def Cell.Above (it : Item) (c : Cell) : Prop :=
  c = .broken ∨ ∃ b, c = .val b ∧ ((WaterMark.decode b).item = it ∨ Item.lt it (WaterMark.decode b).item)

theorem Cell.Above.ofItem {m : Bytes} {it : Item} (h : consensusItem m = some it) :
    Cell.Above it (.val (WaterMark.ofItem it).encode) :=
  .inr ⟨_, rfl, .inl (by rw [WaterMark.decode_encode, WaterMark.item_ofItem h])⟩

theorem Cell.Above.lt {it j : Item} {c : Cell} {b : Bytes} (h : c.Above it) (hc : c = .val b)
    (hj : Item.lt (WaterMark.decode b).item j) : Item.lt it j := by
  subst hc
  rcases h with h | ⟨b', hb, h⟩
  · cases h
  · cases hb
    rcases h with h | h
    · rw [← h]; exact hj
    · exact Item.lt_trans h hj

theorem Cell.Above.step {cfg : Config} {env : Env} {ev : Event} {s : Dev} {out : Output} {c c' : Cell} {it : Item}
    (h : c.Above it) (hm : MainStep cfg env ev s out c c') (ho : ¬ Overrides cfg s ev) : c'.Above it := by
  cases hm with
  | same hc _ => rw [hc]; exact h
  | override ho' => exact absurd ho' ho
  | advance b m j hb hi hl hlt hc hs =>
    rcases hc with rfl | rfl | rfl
    · exact h
    · refine .inr ⟨_, rfl, .inr ?_⟩
      rw [WaterMark.decode_encode, WaterMark.item_ofItem hi]
      exact h.lt hb hlt
    · exact .inl rfl

/-- Along a run without overrides. -/
theorem Cell.Above.run {cfg : Config} {s : Dev} {es : List (Env × Event)} {n : Nat} {c : Cell} {it : Item}
    (hok : s.Ok) (h : s.main.Holds n c) (ha : c.Above it) (he : ∀ e ∈ es, e.1.mainF.Sound)
    (hn : n + es.length < 2 ^ 64) (ho : ∀ m ∈ s.trace cfg es, ¬ Overrides cfg m.st m.ev) :
    ∃ c', (s.run cfg es).1.main.Holds (n + es.length) c' ∧ c'.Above it := by
  induction es generalizing s n c with
  | nil => exact ⟨c, h, ha⟩
  | cons x xs ih =>
    obtain ⟨c', h1, hm⟩ := s.step_main (cfg := cfg) (ev := x.2) hok h (he x (by simp)) (by simp at hn; omega)
    have ha' := ha.step hm (ho ⟨s, x.1, x.2, (s.step cfg x.1 x.2).2⟩ (by simp [Dev.trace]))
    obtain ⟨c'', h2, h3⟩ := ih hok.step h1 ha' (fun e hh => he e (by simp [hh])) (by simp at hn ⊢; omega)
      (fun m hm => ho m (by simp [Dev.trace, hm]))
    exact ⟨c'', by simpa [Dev.run, Nat.add_assoc, Nat.add_comm 1] using h2, h3⟩

/-- A consensus signature at an event of a history from the factory state: the item, the watermark before and after. -/
theorem consensus_moment {cfg : Config} {s : Dev} {env : Env} {ev : Event} {n : Nat} {c : Cell} {x : SigRec}
    (hok : s.Ok) (h : s.main.Holds n c) (hf : env.mainF.Sound) (hn : n + 1 < 2 ^ 64)
    (hx : (s.step cfg env ev).2.sig = some x) (hcm : isConsensusMagic x.msg = true) :
    ∃ b it, c = .val b ∧ consensusItem x.msg = some it ∧ it.level < 2 ^ 31 ∧ Item.lt (WaterMark.decode b).item it ∧
      env.mainF = .done ∧ (s.step cfg env ev).1.main.Holds (n + 1) (.val (WaterMark.ofItem it).encode) := by
  obtain ⟨c', h1, hm⟩ := s.step_main (cfg := cfg) (ev := ev) hok h hf hn
  cases hm with
  | same _ hs => rw [hs x hx] at hcm; cases hcm
  | override _ _ _ hs => rw [hs] at hx; cases hx
  | advance b m it hb hi hl hlt hc hs =>
    obtain ⟨rfl, rfl, hd⟩ := hs x hx
    exact ⟨b, it, hb, hi, hl, hlt, hd, h1⟩

/-- The hypotheses shared by the theorems about histories: `m1` and `m2` are two events of a history of a device from
the factory, in that order, with no reset command and no approved setup in between. Every write of the main watermark
completes or is cut by a power loss that leaves the page unchanged, complete, or with a wrong checksum. -/
structure Between (cfg : Config) (new : NewDevice) (es : List (Env × Event)) (m1 m2 : Moment) : Prop where
  sound : ∀ e ∈ es, e.1.mainF.Sound
  short : es.length < 2 ^ 64
  split : ∃ a b c, (Dev.factory new).trace cfg es = a ++ m1 :: (b ++ m2 :: c) ∧
    ∀ m ∈ b, ¬ Overrides cfg m.st m.ev

/-- C01: the consensus signatures given out are in strictly increasing order of (family, level, round, kind): for any
two of them with no reset and no approved setup in between, whatever else happens - other commands, button presses,
restarts, power losses - the later one is about a strictly higher item. -/
theorem C01_consensus_signatures_increase (cfg : Config) (new : NewDevice) (es : List (Env × Event)) (m1 m2 : Moment)
    (hb : Between cfg new es m1 m2) (x1 x2 : SigRec) (h1 : m1.out.sig = some x1) (h2 : m2.out.sig = some x2)
    (c1 : isConsensusMagic x1.msg = true) (c2 : isConsensusMagic x2.msg = true) :
    ∃ i1 i2, consensusItem x1.msg = some i1 ∧ consensusItem x2.msg = some i2 ∧ Item.lt i1 i2 := by
  obtain ⟨hes, hlen, a, b, c, h, ho⟩ := hb
  obtain ⟨ea, eb, rfl, hla, rfl, hst1, ho1, hrest⟩ := Dev.trace_split h
  obtain ⟨ec, ed, rfl, hlb, rfl, hst2, ho2, _⟩ := Dev.trace_split hrest.symm
  simp only [List.length_append, List.length_cons] at hlen
  have hok1 : m1.st.Ok := by rw [hst1]; exact (Dev.Ok.factory new).run
  obtain ⟨cell1, hc1⟩ := Dev.run_main (cfg := cfg) (s := Dev.factory new) (es := ea) (n := 0)
    (Dev.Ok.factory new) (Store.Holds.fresh (by omega)) (fun e he => hes e (by simp [he])) (by omega)
  rw [← hst1, Nat.zero_add] at hc1
  rw [ho1] at h1
  obtain ⟨b1, i1, _, hi1, _, _, _, hc1'⟩ := consensus_moment hok1 hc1 (hes (m1.env, m1.ev) (by simp)) (by omega) h1 c1
  have hok1' : (m1.next cfg).Ok := hok1.step
  obtain ⟨cell2, hc2, ha2⟩ := Cell.Above.run (cfg := cfg) (es := ec) hok1' hc1' (Cell.Above.ofItem hi1)
    (fun e he => hes e (by simp [he])) (by omega) ho
  rw [← hst2] at hc2
  have hok2 : m2.st.Ok := by rw [hst2]; exact hok1'.run
  rw [ho2] at h2
  obtain ⟨b2, i2, hb2, hi2, _, hlt, _, _⟩ := consensus_moment hok2 hc2 (hes (m2.env, m2.ev) (by simp)) (by omega) h2 c2
  exact ⟨i1, i2, hi1, hi2, ha2.lt hb2 hlt⟩

/-- C02: never two Tenderbake blocks, two preendorsements or two endorsements of the same level and round. -/
theorem C02_no_tenderbake_double_signing (cfg : Config) (new : NewDevice) (es : List (Env × Event)) (m1 m2 : Moment)
    (hb : Between cfg new es m1 m2) (x1 x2 : SigRec) (h1 : m1.out.sig = some x1) (h2 : m2.out.sig = some x2)
    (level round kind : Nat) (c1 : consensusItem x1.msg = some ⟨1, level, round, kind⟩)
    (c2 : consensusItem x2.msg = some ⟨1, level, round, kind⟩) : False := by
  obtain ⟨i1, i2, e1, e2, hlt⟩ := C01_consensus_signatures_increase cfg new es m1 m2 hb x1 x2 h1 h2
    (consensusItem_magic c1) (consensusItem_magic c2)
  rw [c1] at e1
  rw [c2] at e2
  cases e1
  cases e2
  exact Item.lt_irrefl _ hlt

/-- C03: never two Emmy blocks or two Emmy endorsements of the same level; nor an Emmy block after an endorsement of
the same level. -/
theorem C03_no_emmy_double_signing (cfg : Config) (new : NewDevice) (es : List (Env × Event)) (m1 m2 : Moment)
    (hb : Between cfg new es m1 m2) (x1 x2 : SigRec) (h1 : m1.out.sig = some x1) (h2 : m2.out.sig = some x2)
    (level r1 r2 k1 k2 : Nat) (c1 : consensusItem x1.msg = some ⟨0, level, r1, k1⟩)
    (c2 : consensusItem x2.msg = some ⟨0, level, r2, k2⟩) : k1 = 0 ∧ k2 = 2 := by
  obtain ⟨i1, i2, e1, e2, hlt⟩ := C01_consensus_signatures_increase cfg new es m1 m2 hb x1 x2 h1 h2
    (consensusItem_magic c1) (consensusItem_magic c2)
  have s1 := consensusItem_shape c1
  have s2 := consensusItem_shape c2
  rw [c1] at e1
  rw [c2] at e2
  cases e1
  cases e2
  simp only [Item.lt] at *
  omega

/-- C04: once a Tenderbake message has been signed no Emmy message is. -/
theorem C04_upgrade_one_way (cfg : Config) (new : NewDevice) (es : List (Env × Event)) (m1 m2 : Moment)
    (hb : Between cfg new es m1 m2) (x1 x2 : SigRec) (h1 : m1.out.sig = some x1) (h2 : m2.out.sig = some x2)
    (i1 : Item) (c1 : consensusItem x1.msg = some i1) (f1 : i1.family = 1) :
    x2.msg[0]? ≠ some 0x01 ∧ x2.msg[0]? ≠ some 0x02 := by
  have key : ∀ b : UInt8, b = 0x01 ∨ b = 0x02 → x2.msg[0]? ≠ some b := by
    intro b hbb hm
    have c2 : isConsensusMagic x2.msg = true := by
      unfold isConsensusMagic
      rw [hm]
      rcases hbb with rfl | rfl <;> rfl
    obtain ⟨j1, j2, e1, e2, hlt⟩ := C01_consensus_signatures_increase cfg new es m1 m2 hb x1 x2 h1 h2
      (consensusItem_magic c1) c2
    rw [c1] at e1
    cases e1
    have hf : j2.family = 0 := by
      unfold consensusItem at e2
      rw [hm] at e2
      rcases hbb with rfl | rfl
      · simp at e2
        rw [← e2.2]
      · simp at e2
        rw [← e2.2]
    simp only [Item.lt] at hlt
    omega
  exact ⟨key _ (.inl rfl), key _ (.inr rfl)⟩

/-- C05: when a consensus signature leaves the device, the watermark protecting it is already in flash: the write
completed, a device restarted right after the event reads it back, and whatever consensus message that device is asked
to sign first, it only signs one that is strictly higher. -/
theorem C05_durable_before_signature (cfg : Config) (new : NewDevice) (es : List (Env × Event))
    (hes : ∀ e ∈ es, e.1.mainF.Sound) (hlen : es.length < 2 ^ 64) (a c : List Moment) (m : Moment)
    (h : (Dev.factory new).trace cfg es = a ++ m :: c) (x : SigRec) (hx : m.out.sig = some x)
    (hc : isConsensusMagic x.msg = true) :
    ∃ it b, consensusItem x.msg = some it ∧ m.env.mainF = .done ∧ (m.next cfg).relaunch.main.read = .ok b ∧
      (WaterMark.decode b).item = it ∧
      ∀ env ev y j, ((m.next cfg).relaunch.step cfg env ev).2.sig = some y → consensusItem y.msg = some j →
        Item.lt it j := by
  obtain ⟨ea, eb, rfl, hla, rfl, hst, ho, _⟩ := Dev.trace_split h
  simp only [List.length_append, List.length_cons] at hlen
  have hok : m.st.Ok := by rw [hst]; exact (Dev.Ok.factory new).run
  obtain ⟨cell, hcell⟩ := Dev.run_main (cfg := cfg) (s := Dev.factory new) (es := ea) (n := 0)
    (Dev.Ok.factory new) (Store.Holds.fresh (by omega)) (fun e he => hes e (by simp [he])) (by omega)
  rw [← hst, Nat.zero_add] at hcell
  rw [ho] at hx
  obtain ⟨b, it, _, hi, _, _, hd, hm⟩ := consensus_moment hok hcell (hes (m.env, m.ev) (by simp)) (by omega) hx hc
  have hit : (WaterMark.decode (WaterMark.ofItem it).encode).item = it := by
    rw [WaterMark.decode_encode, WaterMark.item_ofItem hi]
  have hread : (m.next cfg).relaunch.main.read = .ok (WaterMark.ofItem it).encode := hm.relaunch.read
  refine ⟨it, (WaterMark.ofItem it).encode, hi, hd, hread, hit, ?_⟩
  intro env ev y j hy hj
  cases Dev.step_signed hy with
  | review h p ha _ _ _ _ => exact absurd ha.view (by simp [Dev.relaunch])
  | delegation h br op ha _ _ _ _ => exact absurd ha.view (by simp [Dev.relaunch])
  | consensus h buf rx hrec u q2 first ref hu hcv hp hk hd hs hr b' it' hb' hi' hl hlt =>
    rw [hread] at hb'
    cases hb'
    rw [hj] at hi'
    cases hi'
    rwa [hit] at hlt

/-- The main record of an event of a history. -/
theorem history_main {cfg : Config} {new : NewDevice} {es : List (Env × Event)}
    (hes : ∀ e ∈ es, e.1.mainF.Sound) (hlen : es.length < 2 ^ 64) {a c : List Moment} {m : Moment}
    (h : (Dev.factory new).trace cfg es = a ++ m :: c) :
    m.st.Ok ∧ m.env.mainF.Sound ∧ m.out = (m.st.step cfg m.env m.ev).2 ∧
      ∃ n cell, n + 1 < 2 ^ 64 ∧ m.st.main.Holds n cell := by
  obtain ⟨ea, eb, rfl, hla, rfl, hst, ho, _⟩ := Dev.trace_split h
  simp only [List.length_append, List.length_cons] at hlen
  obtain ⟨cell, hcell⟩ := Dev.run_main (cfg := cfg) (s := Dev.factory new) (es := ea) (n := 0)
    (Dev.Ok.factory new) (Store.Holds.fresh (by omega)) (fun e he => hes e (by simp [he])) (by omega)
  rw [← hst] at hcell
  exact ⟨by rw [hst]; exact (Dev.Ok.factory new).run, hes (m.env, m.ev) (by simp), ho, _, cell, by omega, hcell⟩

/-- C07: an event that is neither a reset command nor the approval of a setup never lowers the main watermark: what is
read after it is at least what was read before it, or the record no longer reads at all. -/
theorem C07_only_overrides_lower (cfg : Config) (new : NewDevice) (es : List (Env × Event))
    (hes : ∀ e ∈ es, e.1.mainF.Sound) (hlen : es.length < 2 ^ 64) (a c : List Moment) (m : Moment)
    (h : (Dev.factory new).trace cfg es = a ++ m :: c) (ho : ¬ Overrides cfg m.st m.ev)
    (b : Bytes) (hb : m.st.main.read = .ok b) :
    (m.next cfg).main.read = .panic ∨ (m.next cfg).main.read = .err .crc ∨
    ∃ b', (m.next cfg).main.read = .ok b' ∧
      ((WaterMark.decode b').item = (WaterMark.decode b).item ∨
        Item.lt (WaterMark.decode b).item (WaterMark.decode b').item) := by
  obtain ⟨hok, hf, hout, n, cell, hn, hcell⟩ := history_main hes hlen h
  have hcb : cell = .val b := (hb ▸ hcell.read).ok
  obtain ⟨c', h1, hm⟩ := m.st.step_main (cfg := cfg) (ev := m.ev) hok hcell hf hn
  have ha : Cell.Above (WaterMark.decode b).item cell := .inr ⟨b, hcb, .inl rfl⟩
  rcases ha.step hm ho with rfl | ⟨b', rfl, hb'⟩
  · rcases h1.read with h1 | h1
    · exact .inl h1
    · exact .inr (.inl h1)
  · exact .inr (.inr ⟨b', h1.read, hb'⟩)

theorem consensus_level (cfg : Config) (s : Dev) (env : Env) (ev : Event) (x : SigRec) (hok : s.Ok)
    (hx : (s.step cfg env ev).2.sig = some x) (hc : isConsensusMagic x.msg = true) :
    ∃ it, consensusItem x.msg = some it ∧ it.level < 2 ^ 31 := by
  cases Dev.step_signed hx with
  | review h p ha _ _ _ _ =>
    have h3 := hok _ ha.view
    unfold isConsensusMagic at hc
    rcases (h3 : _ ∨ _) with h3 | h3 <;> rw [h3] at hc <;> cases hc
  | delegation h br op ha _ _ _ _ =>
    have h3 := hok _ ha.view
    unfold isConsensusMagic at hc
    rw [(h3 : _ = _)] at hc
    cases hc
  | consensus h buf rx hrec u q2 first ref hu hcv hp hk hd hs hr b it hb hi hl => exact ⟨it, hi, hl⟩

/-- C08: along every history, whatever becomes of its flash writes, a consensus signature is about a level below 2^31. -/
theorem C08_levels_31_bits (cfg : Config) (new : NewDevice) (es : List (Env × Event)) (m : Moment)
    (hm : m ∈ (Dev.factory new).trace cfg es) (x : SigRec) (hx : m.out.sig = some x)
    (hc : isConsensusMagic x.msg = true) : ∃ it, consensusItem x.msg = some it ∧ it.level < 2 ^ 31 := by
  obtain ⟨a, c, h⟩ := List.append_of_mem hm
  obtain ⟨ea, eb, rfl, hla, rfl, hst, ho, _⟩ := Dev.trace_split h
  rw [ho] at hx
  exact consensus_level cfg m.st m.env m.ev x (by rw [hst]; exact (Dev.Ok.factory new).run) hx hc

/-! ### Resets and setups -/

/-- The event resets or sets up the main watermark at `level` and is answered with success. -/
inductive SetsLevel (cfg : Config) (m : Moment) (level : UInt32) : Prop where
  | reset (buf : Bytes) (rx : Nat) (p : Bytes) (h : Received cfg m.st m.ev buf rx .reset)
      (hp : apduPayload buf = some p) (hl : u32OfBe (p.take 4) = level) (hr : m.out.reply = some [0x90, 0x00])
  | setup (k : PathAndCurve) (a : Addr) (t : UInt32) (ch : ChainID) (h : Approves m.st m.ev (.setup k a level t ch))
      (d : Bytes) (hr : m.out.reply = some (d ++ [0x90, 0x00]))

theorem Res.Bad.reply {r : Res} (h : r.Bad) (d : Bytes) : r.deliver.2.reply ≠ some (d ++ [0x90, 0x00]) := by
  obtain ⟨_, ⟨e, he, ho⟩ | ⟨f, ho⟩⟩ := h
  · simp only [Res.deliver, ho, ne_eq, Option.some.injEq]
    intro hh
    have hl := congrArg List.length hh
    simp only [statusWord, beEnc_length, List.length_append, List.length_cons, List.length_nil] at hl
    have : d = [] := List.eq_nil_of_length_eq_zero (by omega)
    subst this
    cases e <;> first | exact he rfl | (revert hh; decide)
  · simp [Res.deliver, ho]

theorem SetsLevel.main {cfg : Config} {m : Moment} {level : UInt32} {n : Nat} {c : Cell}
    (h : SetsLevel cfg m level) (hout : m.out = (m.st.step cfg m.env m.ev).2) (hc : m.st.main.Holds n c)
    (hf : m.env.mainF.Sound) (hn : n + 1 < 2 ^ 64) :
    (m.next cfg).main.Holds (n + 1) (.val (hwmBytes level)) := by
  have hw : ∀ s' : Dev, s'.main = (m.st.main.write m.env.mainF (hwmBytes level)).1 →
      (m.st.main.write m.env.mainF (hwmBytes level)).2 = .ok → s'.main.Holds (n + 1) (.val (hwmBytes level)) := by
    intro s' hs hok
    obtain ⟨c', h1, h2, _⟩ := hc.write (b := hwmBytes level) hn (WaterMark.encode_length _) hf
    rcases h2 with ⟨_, rfl⟩ | ⟨h2, _⟩
    · rw [hs]; exact h1
    · exact absurd hok h2
  cases h with
  | reset buf rx p hrec hp hl hr =>
    subst hl
    rw [hout, hrec.step] at hr
    have hst : (m.next cfg).main = _ := congrArg (fun p => p.1.main) (hrec.step m.env)
    have hfl := (m.st.exec cfg m.env .reset (buf.getD 2 0) (buf.getD 3 0) (apduPayload buf)).deliver_flash
    rw [hfl.main] at hst
    have hex : m.st.exec cfg m.env .reset (buf.getD 2 0) (buf.getD 3 0) (apduPayload buf) =
        m.st.cmdReset m.env (some p) := by rw [hp]; rfl
    rw [hex] at hst hr
    rcases m.st.cmdReset_cases m.env (some p) with hfail | ⟨p', hp', _, hreset⟩
    · exact absurd hr (hfail.bad.reply [])
    · cases hp'
      rw [hreset] at hst hr
      cases m.st.resetHwm_cases m.env (u32OfBe (p.take 4)) with
      | main _ _ hb => exact absurd hr (hb.reply [])
      | test _ _ _ hb => exact absurd hr (hb.reply [])
      | chain hm _ hst' _ => exact hw _ (by rw [hst, hst']) hm
      | init hm _ _ hst' _ => exact hw _ (by rw [hst, hst']) hm
  | setup k a t ch ha d hr =>
    obtain ⟨hfl, _, hrep⟩ := ha.step (cfg := cfg) m.env
    rw [hout, hrep] at hr
    have hst : (m.next cfg).main = _ := hfl.main
    cases View.accept_setup m.env k a level t ch m.st.idle with
    | none _ hb => exact absurd hr (hb.reply d)
    | key _ _ hb => exact absurd hr (hb.reply d)
    | main _ _ _ hb => exact absurd hr (hb.reply d)
    | test _ _ _ _ hb => exact absurd hr (hb.reply d)
    | chain _ hm _ hst' _ => exact hw _ (by rw [hst, hst']; rfl) hm

/-- C06, what holds: after a reset or a setup at `level` that was answered with success, and until the next one, the
device signs no Emmy block of a level up to `level` and no Emmy endorsement of a level below `level`.
What is missing: the claim for Tenderbake messages, which is false (`C06_tenderbake_not_protected`), and for the Emmy
endorsement of exactly `level` (`C06_endorsement_at_level`). -/
theorem C06_reset_protects_emmy_partial (cfg : Config) (new : NewDevice) (es : List (Env × Event)) (m1 m2 : Moment)
    (hb : Between cfg new es m1 m2) (level : UInt32) (hs : SetsLevel cfg m1 level) (x : SigRec)
    (hx : m2.out.sig = some x) (l r k : Nat) (hi : consensusItem x.msg = some ⟨0, l, r, k⟩) :
    level.toNat < l ∨ (level.toNat = l ∧ k = 2) := by
  obtain ⟨hes, hlen, a, b, c, h, ho⟩ := hb
  obtain ⟨ea, eb, rfl, hla, rfl, hst1, ho1, hrest⟩ := Dev.trace_split h
  obtain ⟨ec, ed, rfl, hlb, rfl, hst2, ho2, _⟩ := Dev.trace_split hrest.symm
  simp only [List.length_append, List.length_cons] at hlen
  have hok1 : m1.st.Ok := by rw [hst1]; exact (Dev.Ok.factory new).run
  obtain ⟨cell1, hc1⟩ := Dev.run_main (cfg := cfg) (s := Dev.factory new) (es := ea) (n := 0)
    (Dev.Ok.factory new) (Store.Holds.fresh (by omega)) (fun e he => hes e (by simp [he])) (by omega)
  rw [← hst1, Nat.zero_add] at hc1
  have hc1' := hs.main ho1 hc1 (hes (m1.env, m1.ev) (by simp)) (by omega)
  have ha1 : Cell.Above ⟨0, level.toNat, 0, 0⟩ (.val (hwmBytes level)) :=
    .inr ⟨_, rfl, .inl (by rw [hwmBytes, WaterMark.decode_encode]; rfl)⟩
  have hok1' : (m1.next cfg).Ok := hok1.step
  obtain ⟨cell2, hc2, ha2⟩ := Cell.Above.run (cfg := cfg) (es := ec) hok1' hc1' ha1
    (fun e he => hes e (by simp [he])) (by omega) ho
  rw [← hst2] at hc2
  have hok2 : m2.st.Ok := by rw [hst2]; exact hok1'.run
  rw [ho2] at hx
  obtain ⟨b2, i2, hb2, hi2, _, hlt, _, _⟩ := consensus_moment hok2 hc2 (hes (m2.env, m2.ev) (by simp)) (by omega) hx
    (consensusItem_magic hi)
  have hfin := ha2.lt hb2 hlt
  have hsh := consensusItem_shape hi
  rw [hi] at hi2
  cases hi2
  simp only [Item.lt] at hfin hsh
  omega

/-! ### Concrete histories -/

namespace Demo

/-- A list split at two positions. -/
theorem split_at {α : Type} {l : List α} {i j : Nat} {x y : α} (hi : l[i]? = some x) (hj : l[j]? = some y)
    (hij : i < j) : l = l.take i ++ x :: ((l.drop (i + 1)).take (j - i - 1) ++ y :: l.drop (j + 1)) := by
  have hj' := List.getElem?_eq_some_iff.mp hj
  have hi' := List.getElem?_eq_some_iff.mp hi
  obtain ⟨hjl, rfl⟩ := hj'
  obtain ⟨hil, rfl⟩ := hi'
  have h1 : l.drop i = l[i] :: l.drop (i + 1) := (List.drop_eq_getElem_cons hil)
  have h2 : (l.drop (i + 1)).drop (j - i - 1) = l[j] :: l.drop (j + 1) := by
    rw [List.drop_drop, show i + 1 + (j - i - 1) = j by omega, List.drop_eq_getElem_cons hjl]
  rw [← h2, List.take_append_drop, ← h1, List.take_append_drop]

/-- `Between` by positions in a history. -/
theorem between {cfg : Config} {es : List (Env × Event)} {i j : Nat} {m1 m2 : Moment}
    (hs : ∀ e ∈ es, e.1.mainF.Sound) (hl : es.length < 2 ^ 64)
    (h1 : (fresh.trace cfg es)[i]? = some m1) (h2 : (fresh.trace cfg es)[j]? = some m2) (hij : i < j)
    (ho : ∀ m ∈ ((fresh.trace cfg es).drop (i + 1)).take (j - i - 1), ¬ Overrides cfg m.st m.ev) :
    Between cfg ⟨.small, []⟩ es m1 m2 :=
  ⟨hs, hl, _, _, _, split_at h1 h2 hij, ho⟩

/-- Setup at level 5, an Emmy block, a power loss during the next watermark write, a restart, an endorsement, then
Tenderbake messages. -/
def history : List (Env × Event) :=
  setup 5 ++ sign (emmyBlock 7) ++ signCut .unchanged (emmyBlock 8) ++ sign (emmyEndorsement 7) ++
  sign (tbBlock 3 1) ++ sign (tbPreendorsement 3 1) ++ sign (tbEndorsement 3 1) ++ sign (tbBlock 3 1 9) ++
  sign (tbBlock 4 0)

set_option maxRecDepth 100000 in
/-- Which messages of `history` are signed: the second block of level 3 and round 1 (event 22) is refused. -/
example : (List.range history.length).map (fun i => (signedAt bakingApp history i).map consensusItem) =
    List.replicate 9 none ++ [some (some ⟨0, 7, 0, 0⟩), none, none, none, none, some (some ⟨0, 7, 0, 2⟩), none,
      some (some ⟨1, 3, 1, 0⟩), none, some (some ⟨1, 3, 1, 1⟩), none, some (some ⟨1, 3, 1, 2⟩), none, none, none,
      some (some ⟨1, 4, 0, 0⟩)] := by
  decide +kernel

theorem history_sound : ∀ e ∈ history, e.1.mainF.Sound := by decide +kernel

set_option maxRecDepth 100000 in
/-- The hypotheses of C01 hold for the events 9 and 14 of `history`, with a power loss in between. -/
example : ∃ m1 m2 x1 x2, Between bakingApp ⟨.small, []⟩ history m1 m2 ∧ m1.out.sig = some x1 ∧ m2.out.sig = some x2 ∧
    isConsensusMagic x1.msg = true ∧ isConsensusMagic x2.msg = true := by
  have h1 : ((fresh.trace bakingApp history)[9]?.bind fun m => m.out.sig).isSome := by decide +kernel
  have h2 : ((fresh.trace bakingApp history)[14]?.bind fun m => m.out.sig).isSome := by decide +kernel
  obtain ⟨x1, hx1⟩ := Option.isSome_iff_exists.mp h1
  obtain ⟨x2, hx2⟩ := Option.isSome_iff_exists.mp h2
  obtain ⟨m1, hm1, hs1⟩ := Option.bind_eq_some_iff.mp hx1
  obtain ⟨m2, hm2, hs2⟩ := Option.bind_eq_some_iff.mp hx2
  refine ⟨m1, m2, x1, x2, between history_sound (by decide +kernel) hm1 hm2 (by omega) (by decide +kernel), hs1, hs2,
    ?_, ?_⟩
  · have : ((fresh.trace bakingApp history)[9]?.bind fun m => m.out.sig).map (fun x => isConsensusMagic x.msg) =
      some true := by decide +kernel
    rw [hx1] at this
    exact Option.some.inj this
  · have : ((fresh.trace bakingApp history)[14]?.bind fun m => m.out.sig).map (fun x => isConsensusMagic x.msg) =
      some true := by decide +kernel
    rw [hx2] at this
    exact Option.some.inj this

/-- Two moments of a history of the baking app, by position. -/
theorem two_moments {es : List (Env × Event)} {i j : Nat} {P : Moment → Moment → Bool}
    (h : ((fresh.trace bakingApp es)[i]?.bind fun m1 => (fresh.trace bakingApp es)[j]?.map (P m1)) = some true) :
    ∃ m1 m2, (fresh.trace bakingApp es)[i]? = some m1 ∧ (fresh.trace bakingApp es)[j]? = some m2 ∧
      P m1 m2 = true := by
  obtain ⟨m1, h1, h⟩ := Option.bind_eq_some_iff.mp h
  obtain ⟨m2, h2, h⟩ := Option.map_eq_some_iff.mp h
  exact ⟨m1, m2, h1, h2, h⟩

/-- The signed item at a moment. -/
def itemOf (m : Moment) : Option Item := m.out.sig.bind fun x => consensusItem x.msg

theorem itemOf_some {m : Moment} {it : Item} (h : itemOf m = some it) :
    ∃ x, m.out.sig = some x ∧ consensusItem x.msg = some it := Option.bind_eq_some_iff.mp h

set_option maxRecDepth 100000 in
/-- C05 and C08 on `history`: the block of event 9 is signed with the power failing at the next watermark write (event
11); the restarted device (event 12) still has the watermark of event 9 and refuses that block again. -/
example :
    let es := history.take 13 ++ sign (emmyBlock 7)
    (fresh.trace bakingApp es)[9]?.bind itemOf = some ⟨0, 7, 0, 0⟩ ∧
    ((fresh.trace bakingApp es)[11]?.map fun m => m.out) = some ⟨none, none, some .powerLoss⟩ ∧
    ((fresh.trace bakingApp es)[13]?.map fun m => match m.st.main.read with
      | .ok b => some (WaterMark.decode b).item
      | _ => none) = some (some ⟨0, 7, 0, 0⟩) ∧
    ((fresh.trace bakingApp es)[14]?.map fun m => m.out.reply) = some (some (statusWord .dataInvalid)) := by
  decide +kernel

set_option maxRecDepth 100000 in
/-- C07 on `history`: the watermark read before and after the events 14 (an endorsement is signed) and 22 (a second
block of the same round is refused), which are no overrides. -/
example :
    let item := fun (s : Dev) => match s.main.read with
      | .ok b => some (WaterMark.decode b).item
      | _ => none
    ((fresh.trace bakingApp history)[14]?.map fun m =>
        (decide (Overrides bakingApp m.st m.ev), item m.st, item (m.next bakingApp))) =
      some (false, some ⟨0, 7, 0, 0⟩, some ⟨0, 7, 0, 2⟩) ∧
    ((fresh.trace bakingApp history)[22]?.map fun m =>
        (decide (Overrides bakingApp m.st m.ev), item m.st, item (m.next bakingApp))) =
      some (false, some ⟨1, 3, 1, 2⟩, some ⟨1, 3, 1, 2⟩) := by
  decide +kernel

end Demo

open Demo in
set_option maxRecDepth 100000 in
/-- C06 is false for Tenderbake: after a setup of the main watermark at level 100, approved and answered with success,
the device signs a Tenderbake block of level 3. -/
theorem C06_tenderbake_not_protected :
    ∃ (es : List (Env × Event)) (m1 m2 : Moment) (x : SigRec), Between bakingApp ⟨.small, []⟩ es m1 m2 ∧
      SetsLevel bakingApp m1 100 ∧ m2.out.sig = some x ∧ consensusItem x.msg = some ⟨1, 3, 0, 0⟩ := by
  obtain ⟨m1, m2, h1, h2, h⟩ := two_moments (es := reset 100 ++ setup 100 ++ sign (tbBlock 3 0)) (i := 8) (j := 10)
    (P := fun m1 m2 => decide (m1.st.running = true ∧ m1.ev = .both ∧ isReview m1.st.zui.screen = true ∧
        m1.st.zui.chosen = .approve ∧
        (match m1.st.view with | some (.setup _ _ l _ _) => some l | _ => none) = some 100 ∧
        (m1.out.reply.map fun r => r.drop 34) = some [0x90, 0x00] ∧ itemOf m2 = some ⟨1, 3, 0, 0⟩)) (by decide +kernel)
  simp only [decide_eq_true_eq] at h
  obtain ⟨hrun, hev, hscr, hact, hview, hrep, hit⟩ := h
  obtain ⟨x, hx, hi⟩ := itemOf_some hit
  refine ⟨_, m1, m2, x, between (by decide +kernel) (by decide +kernel) h1 h2 (by omega) (by decide +kernel), ?_, hx, hi⟩
  split at hview
  · rename_i k a l t ch hv
    cases hview
    obtain ⟨r, hr, hd⟩ := Option.map_eq_some_iff.mp hrep
    cases hs : m1.st.zui.screen with
    | review k' l1 l2 =>
      refine .setup k a t ch ⟨hrun, hev, ⟨k', l1, l2, hs⟩, hact, hv⟩ (r.take 34) ?_
      rw [hr, ← hd, List.take_append_drop]
    | _ => rw [hs] at hscr; cases hscr
  · cases hview

open Demo in
set_option maxRecDepth 100000 in
/-- C06 is false for the Emmy endorsement of the level itself: after a reset to level 100 answered with success, the
endorsement of level 100 is signed. -/
theorem C06_endorsement_at_level :
    ∃ (es : List (Env × Event)) (m1 m2 : Moment) (x : SigRec), Between bakingApp ⟨.small, []⟩ es m1 m2 ∧
      SetsLevel bakingApp m1 100 ∧ m2.out.sig = some x ∧ consensusItem x.msg = some ⟨0, 100, 0, 2⟩ := by
  obtain ⟨m1, m2, h1, h2, h⟩ := two_moments (es := setup 5 ++ reset 100 ++ sign (emmyEndorsement 100)) (i := 8) (j := 10)
    (P := fun m1 m2 => decide (m1.st.running = true ∧ m1.ev = apdu 0x06 0 0 (be32 100) ∧
        m1.out.reply = some [0x90, 0x00] ∧ itemOf m2 = some ⟨0, 100, 0, 2⟩)) (by decide +kernel)
  simp only [decide_eq_true_eq] at h
  obtain ⟨hrun, hev, hrep, hit⟩ := h
  obtain ⟨x, hx, hi⟩ := itemOf_some hit
  refine ⟨_, m1, m2, x, between (by decide +kernel) (by decide +kernel) h1 h2 (by omega) (by decide +kernel), ?_, hx, hi⟩
  exact .reset _ _ (be32 100) ⟨hev, hrun, by decide +kernel, by decide +kernel, 0x06, by decide +kernel, rfl⟩
    (by decide +kernel) (by decide +kernel) hrep

open Demo in
/-- Setup at level 5, seven blocks of levels 7 to 13, a watermark write that raises an exception and leaves the page
as it was, and again a block of level 13, of another chain. -/
def Demo.rollback : List (Env × Event) :=
  setup 5 ++ sign (emmyBlock 7) ++ sign (emmyBlock 8) ++ sign (emmyBlock 9) ++ sign (emmyBlock 10) ++
  sign (emmyBlock 11) ++ sign (emmyBlock 12) ++ sign (emmyBlock 13) ++
  [(fine, apdu 0x04 0 0 keyPath), ({ fine with mainF := .fails .unchanged }, apdu 0x04 0x81 0 (emmyBlock 14))] ++
  sign (emmyBlock 13 [1, 2, 3, 4])

open Demo in
set_option maxRecDepth 100000 in
/-- The restriction of C01 on flash writes is needed: when a watermark write fails with an exception (which the app
reports to the host before carrying on) the wear leveller has already moved on, the next read finds the watermark of
eight writes ago, and the device signs two different blocks of the same level. -/
theorem C01_write_exception_rolls_back :
    ∃ (es : List (Env × Event)) (a b c : List Moment) (m1 m2 : Moment) (x1 x2 : SigRec) (it : Item),
      (∀ e ∈ es, e.1.mainF = .done ∨ e.1.mainF = .fails .unchanged) ∧
      (Dev.factory ⟨.small, []⟩).trace bakingApp es = a ++ m1 :: (b ++ m2 :: c) ∧
      (∀ m ∈ b, ¬ Overrides bakingApp m.st m.ev) ∧ m1.out.sig = some x1 ∧ m2.out.sig = some x2 ∧
      consensusItem x1.msg = some it ∧ consensusItem x2.msg = some it ∧ x1.msg ≠ x2.msg := by
  obtain ⟨m1, m2, h1, h2, h⟩ := two_moments (es := rollback) (i := 21) (j := 25)
    (P := fun m1 m2 => decide (itemOf m1 = some ⟨0, 13, 0, 0⟩ ∧ itemOf m2 = some ⟨0, 13, 0, 0⟩ ∧
      m1.out.sig.map SigRec.msg ≠ m2.out.sig.map SigRec.msg)) (by decide +kernel)
  simp only [decide_eq_true_eq] at h
  obtain ⟨i1, i2, hne⟩ := h
  obtain ⟨x1, hx1, hi1⟩ := itemOf_some i1
  obtain ⟨x2, hx2, hi2⟩ := itemOf_some i2
  refine ⟨rollback, _, _, _, m1, m2, x1, x2, _, by decide +kernel, split_at h1 h2 (by omega), by decide +kernel, hx1, hx2, hi1,
    hi2, ?_⟩
  intro he
  rw [hx1, hx2] at hne
  exact hne (by simp [he])

end Tezos
