import Verif.Props.Settle
import Verif.Props.Watermarks
/-
C01-C06: failing writes of the watermark that are over do no harm. From a consensus signature, a reset or a setup on,
the order is kept as long as no write fails, whatever writes failed before, and without a restart.
-/
set_option linter.unusedSimpArgs false
namespace Tezos
open Spec

/-- A write that completes, is cut by a power loss that the checksum detects, or fails with an exception having written
its page or not. -/
def Fate.Untorn : Fate → Prop
  | .done => True
  | .powerLoss left => left.Detected
  | .fails left => left = .unchanged ∨ left = .complete

/-- A record with at most `n` writes so far, some of which may have failed: the page index in RAM is at or beyond the
newest page, or a page is damaged and the record cannot be opened. -/
inductive Store.Loose (st : Store) (n : Nat) : Prop where
  | good {k : Nat} {v : Bytes} (hk : k ≤ n) (hi : StoreInv st.pages k v)
      (hc : st.cache = none ∨ ∃ i, st.cache = some i ∧ k ≤ i ∧ i ≤ n)
  | broken (hc : st.cache = none) (hp : ∃ p ∈ st.pages, Slot.ofPage p = none)

theorem Store.Loose.fresh {n : Nat} (hn : 0 < n) : Store.Loose ⟨freshPages n, none⟩ 0 :=
  .good (k := 0) (Nat.le_refl _) (StoreInv.fresh hn) (.inl rfl)

theorem Store.Loose.mono {st : Store} {n m : Nat} (h : st.Loose n) (hm : n ≤ m) : st.Loose m := by
  cases h with
  | good hk hi hc =>
    refine .good (by omega) hi ?_
    rcases hc with hc | ⟨i, hc, h1, h2⟩
    · exact .inl hc
    · exact .inr ⟨i, hc, h1, by omega⟩
  | broken hc hp => exact .broken hc hp

theorem Store.Loose.relaunch {st : Store} {n : Nat} (h : st.Loose n) : st.relaunch.Loose n := by
  cases h with
  | good hk hi hc => exact .good hk hi (.inl rfl)
  | broken hc hp => exact .broken rfl hp

theorem Store.Loose.wear {st : Store} {n k : Nat} {v : Bytes} (hk : k ≤ n) (hi : StoreInv st.pages k v)
    (hc : st.cache = none ∨ ∃ i, st.cache = some i ∧ k ≤ i ∧ i ≤ n) :
    ∃ i, st.wear = .ok ⟨st.pages, i⟩ ∧ k ≤ i ∧ i ≤ n := by
  unfold Store.wear
  rcases hc with hc | ⟨i, hc, h1, h2⟩
  · exact ⟨k, by rw [hc]; exact hi.new, Nat.le_refl _, hk⟩
  · exact ⟨i, by rw [hc], h1, h2⟩

/-- A write keeps this; one that is reported as successful makes its value the contents. -/
theorem Store.Loose.write {st : Store} {n : Nat} {f : Fate} {b : Bytes} (h : st.Loose n) (hn : n + 1 < 2 ^ 64)
    (hb : b.length = slotSize) (hf : f.Untorn) :
    (st.write f b).1.Loose (n + 1) ∧ ((st.write f b).2 = .ok → (st.write f b).1.Holds (n + 1) (.val b)) := by
  cases h with
  | @good k v hk hi hc =>
    obtain ⟨i, hw, h1, h2⟩ := Store.Loose.wear hk hi hc
    have hmod : (i + 1) % 2 ^ 64 = i + 1 := Nat.mod_eq_of_lt (by omega)
    have hne : ¬ st.pages.length = 0 := by have := hi.pos; omega
    have hlt : (i + 1) % st.pages.length < st.pages.length := Nat.mod_lt _ hi.pos
    have hset := hi.setAt (j := i + 1) (u := b) (by omega) (by omega) hb
    simp only [Store.write, hw, Wear.write, hmod, hne, if_false]
    cases f with
    | done =>
      exact ⟨.good (k := i + 1) (by omega) hset (.inr ⟨i + 1, rfl, Nat.le_refl _, by omega⟩),
        fun _ => .good (k := i + 1) (by omega) (.inr rfl) hset⟩
    | fails l =>
      refine ⟨?_, by simp [Fate.forWear]⟩
      rcases hf with rfl | rfl
      · simp only [Fate.forWear, PageLeft.page, hmod, List.getD_eq_getElem?_getD,
          List.getElem?_eq_getElem hlt, Option.getD_some, List.set_getElem_self]
        exact .good (by omega) hi (.inr ⟨i + 1, rfl, by omega, by omega⟩)
      · simp only [Fate.forWear, PageLeft.page, hmod]
        exact .good (k := i + 1) (by omega) hset (.inr ⟨i + 1, rfl, Nat.le_refl _, by omega⟩)
    | powerLoss l =>
      refine ⟨?_, by simp [Fate.forWear]⟩
      cases l with
      | unchanged =>
        simp only [Fate.forWear, PageLeft.page, hmod, List.getD_eq_getElem?_getD,
          List.getElem?_eq_getElem hlt, Option.getD_some, List.set_getElem_self]
        exact .good (by omega) hi (.inl rfl)
      | complete =>
        simp only [Fate.forWear, PageLeft.page, hmod]
        exact .good (k := i + 1) (by omega) hset (.inl rfl)
      | other p => exact .broken rfl ⟨p, List.mem_set hlt _, hf⟩
  | broken hc hp =>
    have hw : st.write f b = (st, .panic) := by simp only [Store.write, Store.wear, hc, Wear.new_broken hp]
    rw [hw]
    exact ⟨.broken hc hp, by simp⟩

/-- What an event can do to the record of the watermark: nothing, a restart, or one write. -/
theorem Dev.step_main_store (cfg : Config) (env : Env) (ev : Event) (s : Dev) :
    (s.step cfg env ev).1.main = s.main ∨ (s.step cfg env ev).1.main = s.main.relaunch ∨
    ∃ w : WaterMark, (s.step cfg env ev).1.main = (s.main.write env.mainF w.encode).1 := by
  cases s.step_cases cfg env ev with
  | still hfl hs => exact .inl hfl.main
  | relaunch hfl he hs => exact .inr (.inl hfl.main)
  | accept v ha hfl hs hr =>
    rcases v.accept_still_or env s.idle with hst | ⟨k, a, m, t, ch, rfl⟩
    · exact .inl (by rw [hfl.main, hst.1]; rfl)
    · have hmain : (View.accept env (.setup k a m t ch) s.idle).st.main = s.main ∨
          (View.accept env (.setup k a m t ch) s.idle).st.main = (s.main.write env.mainF (hwmBytes m)).1 := by
        cases View.accept_setup env k a m t ch s.idle with
        | none hst _ => rw [hst]; exact .inl rfl
        | key _ hst _ => rw [hst]; exact .inl rfl
        | main _ _ hst _ => rw [hst]; exact .inr rfl
        | test _ _ _ hst _ => rw [hst]; exact .inr rfl
        | chain _ _ _ hst _ => rw [hst]; exact .inr rfl
      rcases hmain with hm | hm
      · exact .inl (by rw [hfl.main, hm])
      · exact .inr (.inr ⟨_, by rw [hfl.main, hm]; rfl⟩)
  | command buf rx cmd hrec he =>
    have hfl := (s.exec cfg env cmd (buf.getD 2 0) (buf.getD 3 0) (apduPayload buf)).deliver_flash
    rw [he] at hfl
    cases s.exec_cases cfg env cmd (buf.getD 2 0) (buf.getD 3 0) (apduPayload buf) with
    | still p u hs _ => exact .inl (by rw [hfl.main, hs.1]; rfl)
    | opened v p u u' ho hout hs hst _ =>
      have hm : ((s.withUpload p u).show env v).st.main = s.main := ((s.withUpload p u).show_flash env v).main
      refine .inl ?_
      rw [hfl.main, hst]
      exact hm
    | reset p hc hp hl hr =>
      have hmain : (s.resetHwm env (u32OfBe (p.take 4))).st.main =
          (s.main.write env.mainF (hwmBytes (u32OfBe (p.take 4)))).1 := by
        cases s.resetHwm_cases env (u32OfBe (p.take 4)) with
        | main _ hst _ => rw [hst]
        | test _ _ hst _ => rw [hst]
        | chain _ _ hst _ => rw [hst]
        | init _ _ _ hst _ => rw [hst]
      exact .inr (.inr ⟨_, by rw [hfl.main, hr, hmain]; rfl⟩)
    | auto hh u u' q2 first m ref k digest hc hu hcv hp hk hd hmg hout hs hst =>
      rcases (s.withUpload s.path u).autoSign_cases env hh digest m (specDecide m)
        (fun _ _ => specDecide_error) with hfa | ⟨b, w, hb, hdec, hfa⟩
      · exact .inl (by rw [hfl.main, hst, hfa.1]; rfl)
      · refine .inr (.inr ⟨w, ?_⟩)
        rw [hfl.main, hst]
        rcases hfa with hfa | ⟨_, _, _, _, _, hre⟩
        · rw [hfa.1]; rfl
        · rw [hre]; rfl

theorem Dev.run_loose {cfg : Config} {es : List (Env × Event)} :
    ∀ {s : Dev} {n : Nat}, s.main.Loose n → (∀ e ∈ es, e.1.mainF.Untorn) → n + es.length < 2 ^ 64 →
      (s.run cfg es).1.main.Loose (n + es.length) := by
  induction es with
  | nil => intro s n h _ _; exact h
  | cons x xs ih =>
    intro s n h he hn
    simp only [List.length_cons] at hn
    have h1 : (s.step cfg x.1 x.2).1.main.Loose (n + 1) := by
      rcases s.step_main_store cfg x.1 x.2 with hm | hm | ⟨w, hm⟩
      · rw [hm]; exact h.mono (by omega)
      · rw [hm]; exact h.relaunch.mono (by omega)
      · rw [hm]; exact (h.write (by omega) w.encode_length (he x List.mem_cons_self)).1
    have h2 := ih h1 (fun e hh => he e (List.mem_cons_of_mem _ hh)) (by omega)
    simpa [Dev.run, Nat.add_assoc, Nat.add_comm 1] using h2

/-- Two events of a history, in that order, with no reset and no approved setup in between, as in `Between`; but writes of
the watermark before the first one may also fail with an exception, and the app need not be restarted. -/
structure BetweenFrom (cfg : Config) (new : NewDevice) (es : List (Env × Event)) (m1 m2 : Moment) : Prop where
  short : es.length < 2 ^ 64
  split : ∃ a b c, (Dev.factory new).trace cfg es = a ++ m1 :: (b ++ m2 :: c) ∧
    (∀ m ∈ b, ¬ Overrides cfg m.st m.ev) ∧ (∀ m ∈ a, m.env.mainF.Untorn) ∧
    (∀ m ∈ m1 :: (b ++ [m2]), m.env.mainF.Sound)

/-- The worlds of the moments are those of the history. -/
theorem Dev.trace_worlds {cfg : Config} {es : List (Env × Event)} :
    ∀ {s : Dev}, (s.trace cfg es).map (fun m => m.env) = es.map Prod.fst := by
  induction es with
  | nil => intro s; rfl
  | cons e es ih => intro s; simp only [Dev.trace, List.map_cons, ih]

/-- A consensus signature has written its watermark, and the record holds it whatever writes failed before. -/
theorem Store.Loose.signed {cfg : Config} {s : Dev} {env : Env} {ev : Event} {n : Nat} {x : SigRec}
    (hl : s.main.Loose n) (hok : s.Ok) (hn : n + 1 < 2 ^ 64) (hx : (s.step cfg env ev).2.sig = some x)
    (hc : isConsensusMagic x.msg = true) :
    ∃ i, consensusItem x.msg = some i ∧ env.mainF = .done ∧
      (s.step cfg env ev).1.main.Holds (n + 1) (.val (WaterMark.ofItem i).encode) := by
  have hsg := Dev.step_signed hx
  cases hsg with
  | review hh p ha' _ _ _ _ =>
    have h3 := hok _ ha'.view
    unfold isConsensusMagic at hc
    rcases (h3 : _ ∨ _) with h3 | h3 <;> rw [h3] at hc <;> cases hc
  | delegation hh br op ha' _ _ _ _ =>
    have h3 := hok _ ha'.view
    unfold isConsensusMagic at hc
    rw [(h3 : _ = _)] at hc
    cases hc
  | consensus hh buf rx hrec u q2 first ref hu hcv hp hk hd hs hr b it hb hi hlv hlt hw hm hrest =>
    refine ⟨it, hi, Store.write_ok_done hw, ?_⟩
    have hf : env.mainF.Untorn := by rw [Store.write_ok_done hw]; trivial
    have := (hl.write (f := env.mainF) (b := (WaterMark.ofItem it).encode) hn
      (WaterMark.ofItem it).encode_length hf).2 hw
    rw [← hm] at this
    exact this

/-- C01, from then on: whatever writes of the watermark failed before a consensus signature, with or without restarts, every
later one is about a strictly higher item as long as no write fails after the first. -/
theorem C01_from_then_on (cfg : Config) (new : NewDevice) (es : List (Env × Event)) (m1 m2 : Moment)
    (hb : BetweenFrom cfg new es m1 m2) (x1 x2 : SigRec) (h1 : m1.out.sig = some x1) (h2 : m2.out.sig = some x2)
    (c1 : isConsensusMagic x1.msg = true) (c2 : isConsensusMagic x2.msg = true) :
    ∃ i1 i2, consensusItem x1.msg = some i1 ∧ consensusItem x2.msg = some i2 ∧ Item.lt i1 i2 := by
  obtain ⟨hlen, a, b, c, h, ho, hwa, hsb⟩ := hb
  obtain ⟨ea, eb, rfl, hla, rfl, hst1, ho1, hrest⟩ := Dev.trace_split h
  obtain ⟨ec, ed, rfl, hlb, rfl, hst2, ho2, _⟩ := Dev.trace_split hrest.symm
  simp only [List.length_append, List.length_cons] at hlen
  have hwa' : ∀ e ∈ ea, e.1.mainF.Untorn := by
    intro e he
    have : e.1 ∈ ((Dev.factory new).trace cfg ea).map (fun m => m.env) := by
      rw [Dev.trace_worlds]; exact List.mem_map_of_mem he
    obtain ⟨m, hm, e'⟩ := List.mem_map.mp this
    rw [← e']
    exact hwa m hm
  have hsb' : ∀ e ∈ ec, e.1.mainF.Sound := by
    intro e he
    have : e.1 ∈ ((m1.next cfg).trace cfg ec).map (fun m => m.env) := by
      rw [Dev.trace_worlds]; exact List.mem_map_of_mem he
    obtain ⟨m, hm, e'⟩ := List.mem_map.mp this
    rw [← e']
    exact hsb m (by simp [hm])
  have hok1 : m1.st.Ok := by rw [hst1]; exact (Dev.Ok.factory new).run
  have hl1 : m1.st.main.Loose ea.length := by
    rw [hst1]
    simpa using Dev.run_loose (cfg := cfg) (s := Dev.factory new) (es := ea) (n := 0) (Store.Loose.fresh (by omega)) hwa'
      (by omega)
  rw [ho1] at h1
  obtain ⟨i1, hi1, hc1'⟩ : ∃ i1, consensusItem x1.msg = some i1 ∧
      (m1.next cfg).main.Holds (ea.length + 1) (.val (WaterMark.ofItem i1).encode) := by
    obtain ⟨i, hi, _, hh⟩ := hl1.signed hok1 (by omega) h1 c1
    exact ⟨i, hi, hh⟩
  have hok1' : (m1.next cfg).Ok := hok1.step
  obtain ⟨cell2, hc2, ha2⟩ := Cell.Above.run (cfg := cfg) (es := ec) hok1' hc1' (Cell.Above.ofItem hi1)
    hsb' (by omega) ho
  rw [← hst2] at hc2
  have hok2 : m2.st.Ok := by rw [hst2]; exact hok1'.run
  rw [ho2] at h2
  obtain ⟨b2, i2, hb2, hi2, _, hlt, _, _⟩ := consensus_moment hok2 hc2 (hsb m2 (by simp)) (by omega) h2 c2
  exact ⟨i1, i2, hi1, hi2, ha2.lt hb2 hlt⟩

/-- C02, from then on: never a second Tenderbake message of the same kind, level and round, whatever writes failed before
the first. -/
theorem C02_from_then_on (cfg : Config) (new : NewDevice) (es : List (Env × Event)) (m1 m2 : Moment)
    (hb : BetweenFrom cfg new es m1 m2) (x1 x2 : SigRec) (h1 : m1.out.sig = some x1) (h2 : m2.out.sig = some x2)
    (level round kind : Nat) (c1 : consensusItem x1.msg = some ⟨1, level, round, kind⟩) :
    consensusItem x2.msg ≠ some ⟨1, level, round, kind⟩ := by
  intro c2
  obtain ⟨i1, i2, e1, e2, hlt⟩ := C01_from_then_on cfg new es m1 m2 hb x1 x2 h1 h2
    (consensusItem_magic c1) (consensusItem_magic c2)
  rw [c1] at e1
  rw [c2] at e2
  cases e1
  cases e2
  exact Item.lt_irrefl _ hlt

/-- C03, from then on: of two Emmy messages of the same level the first is the block and the second the endorsement,
whatever writes failed before the first. -/
theorem C03_from_then_on (cfg : Config) (new : NewDevice) (es : List (Env × Event)) (m1 m2 : Moment)
    (hb : BetweenFrom cfg new es m1 m2) (x1 x2 : SigRec) (h1 : m1.out.sig = some x1) (h2 : m2.out.sig = some x2)
    (level r1 r2 k1 k2 : Nat) (c1 : consensusItem x1.msg = some ⟨0, level, r1, k1⟩)
    (c2 : consensusItem x2.msg = some ⟨0, level, r2, k2⟩) : k1 = 0 ∧ k2 = 2 := by
  obtain ⟨i1, i2, e1, e2, hlt⟩ := C01_from_then_on cfg new es m1 m2 hb x1 x2 h1 h2
    (consensusItem_magic c1) (consensusItem_magic c2)
  have s1 := consensusItem_shape c1
  have s2 := consensusItem_shape c2
  rw [c1] at e1
  rw [c2] at e2
  cases e1
  cases e2
  simp only [Item.lt] at *
  omega

/-- C04, from then on: after a Tenderbake signature no Emmy message is signed, whatever writes failed before the first. -/
theorem C04_from_then_on (cfg : Config) (new : NewDevice) (es : List (Env × Event)) (m1 m2 : Moment)
    (hb : BetweenFrom cfg new es m1 m2) (x1 x2 : SigRec) (h1 : m1.out.sig = some x1) (h2 : m2.out.sig = some x2)
    (i1 : Item) (c1 : consensusItem x1.msg = some i1) (f1 : i1.family = 1) :
    x2.msg[0]? ≠ some 0x01 ∧ x2.msg[0]? ≠ some 0x02 := by
  have key : ∀ b : UInt8, b = 0x01 ∨ b = 0x02 → x2.msg[0]? ≠ some b := by
    intro b hbb hm
    have c2 : isConsensusMagic x2.msg = true := by
      unfold isConsensusMagic
      rw [hm]
      rcases hbb with rfl | rfl <;> rfl
    obtain ⟨j1, j2, e1, e2, hlt⟩ := C01_from_then_on cfg new es m1 m2 hb x1 x2 h1 h2
      (consensusItem_magic c1) c2
    rw [c1] at e1
    cases e1
    have hf : j2.family = 0 := by
      unfold consensusItem at e2
      rw [hm] at e2
      rcases hbb with rfl | rfl
      · simp at e2
        rw [← e2.2]
      · simp at e2
        rw [← e2.2]
    simp only [Item.lt] at hlt
    omega
  exact ⟨key _ (.inl rfl), key _ (.inr rfl)⟩

/-- C05, whatever writes fail: also in a history with failing writes, before and after, a consensus signature leaves the
device only with its watermark in flash. The write of the event itself completed, a device restarted right after the
event reads it back, and the first consensus message that device signs is strictly higher. -/
theorem C05_whatever_fails (cfg : Config) (new : NewDevice) (es : List (Env × Event))
    (hes : ∀ e ∈ es, e.1.mainF.Untorn) (hlen : es.length < 2 ^ 64) (a c : List Moment) (m : Moment)
    (h : (Dev.factory new).trace cfg es = a ++ m :: c) (x : SigRec) (hx : m.out.sig = some x)
    (hc : isConsensusMagic x.msg = true) :
    ∃ it b, consensusItem x.msg = some it ∧ m.env.mainF = .done ∧ (m.next cfg).relaunch.main.read = .ok b ∧
      (WaterMark.decode b).item = it ∧
      ∀ env ev y j, ((m.next cfg).relaunch.step cfg env ev).2.sig = some y → consensusItem y.msg = some j →
        Item.lt it j := by
  obtain ⟨ea, eb, rfl, hla, rfl, hst, ho, _⟩ := Dev.trace_split h
  simp only [List.length_append, List.length_cons] at hlen
  have hok : m.st.Ok := by rw [hst]; exact (Dev.Ok.factory new).run
  have hl : m.st.main.Loose ea.length := by
    rw [hst]
    simpa using Dev.run_loose (cfg := cfg) (s := Dev.factory new) (es := ea) (n := 0) (Store.Loose.fresh (by omega))
      (fun e he => hes e (by simp [he])) (by omega)
  rw [ho] at hx
  obtain ⟨it, hi, hd, hm⟩ := hl.signed hok (by omega) hx hc
  have hit : (WaterMark.decode (WaterMark.ofItem it).encode).item = it := by
    rw [WaterMark.decode_encode, WaterMark.item_ofItem hi]
  have hread : (m.next cfg).relaunch.main.read = .ok (WaterMark.ofItem it).encode := hm.relaunch.read
  refine ⟨it, (WaterMark.ofItem it).encode, hi, hd, hread, hit, ?_⟩
  intro env ev y j hy hj
  cases Dev.step_signed hy with
  | review h p ha _ _ _ _ => exact absurd ha.view (by simp [Dev.relaunch])
  | delegation h br op ha _ _ _ _ => exact absurd ha.view (by simp [Dev.relaunch])
  | consensus h buf rx hrec u q2 first ref hu hcv hp hk hd hs hr b' it' hb' hi' hl hlt =>
    rw [hread] at hb'
    cases hb'
    rw [hj] at hi'
    cases hi'
    rwa [hit] at hlt

/-- A reset or a setup that is answered with success has written the watermark. -/
theorem SetsLevel.written {cfg : Config} {m : Moment} {level : UInt32} (h : SetsLevel cfg m level)
    (hout : m.out = (m.st.step cfg m.env m.ev).2) :
    (m.next cfg).main = (m.st.main.write m.env.mainF (hwmBytes level)).1 ∧
    (m.st.main.write m.env.mainF (hwmBytes level)).2 = .ok := by
  cases h with
  | reset buf rx p hrec hp hl hr =>
    subst hl
    rw [hout, hrec.step] at hr
    have hst : (m.next cfg).main = _ := congrArg (fun p => p.1.main) (hrec.step m.env)
    have hfl := (m.st.exec cfg m.env .reset (buf.getD 2 0) (buf.getD 3 0) (apduPayload buf)).deliver_flash
    rw [hfl.main] at hst
    have hex : m.st.exec cfg m.env .reset (buf.getD 2 0) (buf.getD 3 0) (apduPayload buf) =
        m.st.cmdReset m.env (some p) := by rw [hp]; rfl
    rw [hex] at hst hr
    rcases m.st.cmdReset_cases m.env (some p) with hfail | ⟨p', hp', _, hreset⟩
    · exact absurd hr (hfail.bad.reply [])
    · cases hp'
      rw [hreset] at hst hr
      cases m.st.resetHwm_cases m.env (u32OfBe (p.take 4)) with
      | main _ _ hb => exact absurd hr (hb.reply [])
      | test _ _ _ hb => exact absurd hr (hb.reply [])
      | chain hm _ hst' _ => exact ⟨by rw [hst, hst'], hm⟩
      | init hm _ _ hst' _ => exact ⟨by rw [hst, hst'], hm⟩
  | setup k a t ch ha d hr =>
    obtain ⟨hfl, _, hrep⟩ := ha.step (cfg := cfg) m.env
    rw [hout, hrep] at hr
    have hst : (m.next cfg).main = _ := hfl.main
    cases View.accept_setup m.env k a level t ch m.st.idle with
    | none _ hb => exact absurd hr (hb.reply d)
    | key _ _ hb => exact absurd hr (hb.reply d)
    | main _ _ _ hb => exact absurd hr (hb.reply d)
    | test _ _ _ _ hb => exact absurd hr (hb.reply d)
    | chain _ hm _ hst' _ => exact ⟨by rw [hst, hst']; rfl, hm⟩

/-- C06, from then on: a reset or a setup that is answered with success protects the Emmy levels up to its own also on a
device on which writes of the watermark failed before, without a restart. What is missing is as in
`C06_reset_protects_emmy_partial`. -/
theorem C06_from_then_on_partial (cfg : Config) (new : NewDevice) (es : List (Env × Event)) (m1 m2 : Moment)
    (hb : BetweenFrom cfg new es m1 m2) (level : UInt32) (hs : SetsLevel cfg m1 level) (x : SigRec)
    (hx : m2.out.sig = some x) (l r k : Nat) (hi : consensusItem x.msg = some ⟨0, l, r, k⟩) :
    level.toNat < l ∨ (level.toNat = l ∧ k = 2) := by
  obtain ⟨hlen, a, b, c, h, ho, hwa, hsb⟩ := hb
  obtain ⟨ea, eb, rfl, hla, rfl, hst1, ho1, hrest⟩ := Dev.trace_split h
  obtain ⟨ec, ed, rfl, hlb, rfl, hst2, ho2, _⟩ := Dev.trace_split hrest.symm
  simp only [List.length_append, List.length_cons] at hlen
  have hwa' : ∀ e ∈ ea, e.1.mainF.Untorn := by
    intro e he
    have : e.1 ∈ ((Dev.factory new).trace cfg ea).map (fun m => m.env) := by
      rw [Dev.trace_worlds]; exact List.mem_map_of_mem he
    obtain ⟨m, hm, e'⟩ := List.mem_map.mp this
    rw [← e']
    exact hwa m hm
  have hsb' : ∀ e ∈ ec, e.1.mainF.Sound := by
    intro e he
    have : e.1 ∈ ((m1.next cfg).trace cfg ec).map (fun m => m.env) := by
      rw [Dev.trace_worlds]; exact List.mem_map_of_mem he
    obtain ⟨m, hm, e'⟩ := List.mem_map.mp this
    rw [← e']
    exact hsb m (by simp [hm])
  have hok1 : m1.st.Ok := by rw [hst1]; exact (Dev.Ok.factory new).run
  have hl1 : m1.st.main.Loose ea.length := by
    rw [hst1]
    simpa using Dev.run_loose (cfg := cfg) (s := Dev.factory new) (es := ea) (n := 0) (Store.Loose.fresh (by omega)) hwa'
      (by omega)
  obtain ⟨hm, hw⟩ := hs.written ho1
  have hf : m1.env.mainF.Untorn := by rw [Store.write_ok_done hw]; trivial
  have hc1' := (hl1.write (f := m1.env.mainF) (b := hwmBytes level) (by omega) (WaterMark.encode_length _) hf).2 hw
  rw [← hm] at hc1'
  have ha1 : Cell.Above ⟨0, level.toNat, 0, 0⟩ (.val (hwmBytes level)) :=
    .inr ⟨_, rfl, .inl (by rw [hwmBytes, WaterMark.decode_encode]; rfl)⟩
  have hok1' : (m1.next cfg).Ok := hok1.step
  obtain ⟨cell2, hc2, ha2⟩ := Cell.Above.run (cfg := cfg) (es := ec) hok1' hc1' ha1 hsb' (by omega) ho
  rw [← hst2] at hc2
  have hok2 : m2.st.Ok := by rw [hst2]; exact hok1'.run
  rw [ho2] at hx
  obtain ⟨b2, i2, hb2, hi2, _, hlt, _, _⟩ := consensus_moment hok2 hc2 (hsb m2 (by simp)) (by omega) hx
    (consensusItem_magic hi)
  have hfin := ha2.lt hb2 hlt
  have hsh := consensusItem_shape hi
  rw [hi] at hi2
  cases hi2
  simp only [Item.lt] at hfin hsh
  omega

namespace Demo

/-- `rollback` and then a block of level 13 again and one of level 14: the block that is signed after the failing write is
the last one below level 14. -/
def rolledBack : List (Env × Event) := rollback ++ sign (emmyBlock 13 [5, 6, 7, 8]) ++ sign (emmyBlock 14)

set_option maxRecDepth 100000 in
/-- The hypotheses hold for the signatures of events 25 and 29, after the failing write of event 23 without a restart; and
the block of level 13 in between is refused. -/
example : ∃ m1 m2 x1 x2, BetweenFrom bakingApp ⟨.small, []⟩ rolledBack m1 m2 ∧
    m1.out.sig = some x1 ∧ m2.out.sig = some x2 ∧ isConsensusMagic x1.msg = true ∧ isConsensusMagic x2.msg = true ∧
    ((fresh.trace bakingApp rolledBack)[27]?.map fun m => m.out.reply) = some (some (statusWord .dataInvalid)) := by
  obtain ⟨m1, m2, h1, h2, h⟩ := two_moments (es := rolledBack) (i := 25) (j := 29)
    (P := fun m1 m2 => decide (m1.out.sig.map (fun x => isConsensusMagic x.msg) = some true ∧
      m2.out.sig.map (fun x => isConsensusMagic x.msg) = some true ∧ m1.env.mainF = .done ∧ m2.env.mainF = .done))
    (by decide +kernel)
  simp only [decide_eq_true_eq, Option.map_eq_some_iff] at h
  obtain ⟨⟨x1, e1, c1⟩, ⟨x2, e2, c2⟩, f1, f2⟩ := h
  refine ⟨m1, m2, x1, x2, ⟨by decide +kernel, _, _, _, split_at h1 h2 (by omega), by decide +kernel, ?_, ?_⟩, e1, e2, c1,
    c2, by decide +kernel⟩
  · have hd : ∀ m ∈ (fresh.trace bakingApp rolledBack).take 25,
        m.env.mainF = .done ∨ m.env.mainF = .fails .unchanged := by decide +kernel
    intro m hm
    rcases hd m hm with h | h <;> rw [h]
    · trivial
    · exact .inl rfl
  · have hd : ∀ m ∈ ((fresh.trace bakingApp rolledBack).drop 26).take 3, m.env.mainF = .done := by decide +kernel
    intro m hm
    have : m.env.mainF = .done := by
      simp only [List.mem_cons, List.mem_append, List.not_mem_nil, or_false] at hm
      rcases hm with rfl | hm | rfl
      · exact f1
      · exact hd m hm
      · exact f2
    rw [this]
    trivial

/-- `rollback` up to the failing write, then a reset to level 13 without a restart, a block of level 13 and one of 14. -/
def resetAfter : List (Env × Event) :=
  rollback.take 24 ++ reset 13 ++ sign (emmyBlock 13 [1, 2, 3, 4]) ++ sign (emmyBlock 14)

set_option maxRecDepth 100000 in
/-- The hypotheses of `C06_from_then_on_partial` hold for the reset and the last block; the block of level 13, which is
signed in `rollback`, is refused here. -/
example : ∃ m1 m2 x, BetweenFrom bakingApp ⟨.small, []⟩ resetAfter m1 m2 ∧ SetsLevel bakingApp m1 13 ∧
    m2.out.sig = some x ∧ consensusItem x.msg = some ⟨0, 14, 0, 0⟩ ∧
    ((fresh.trace bakingApp resetAfter)[26]?.map fun m => m.out.reply) = some (some (statusWord .dataInvalid)) := by
  obtain ⟨m1, m2, h1, h2, h⟩ := two_moments (es := resetAfter) (i := 24) (j := 28)
    (P := fun m1 m2 => decide (m1.st.running = true ∧ m1.ev = apdu 0x06 0 0 (be32 13) ∧
      m1.out.reply = some [0x90, 0x00] ∧ itemOf m2 = some ⟨0, 14, 0, 0⟩ ∧ m1.env.mainF = .done ∧
      m2.env.mainF = .done)) (by decide +kernel)
  simp only [decide_eq_true_eq] at h
  obtain ⟨hrun, hev, hrep, hit, f1, f2⟩ := h
  obtain ⟨x, hx, hi⟩ := itemOf_some hit
  refine ⟨m1, m2, x, ⟨by decide +kernel, _, _, _, split_at h1 h2 (by omega), by decide +kernel, ?_, ?_⟩, ?_, hx, hi,
    by decide +kernel⟩
  · have hd : ∀ m ∈ (fresh.trace bakingApp resetAfter).take 24,
        m.env.mainF = .done ∨ m.env.mainF = .fails .unchanged := by decide +kernel
    intro m hm
    rcases hd m hm with h | h <;> rw [h]
    · trivial
    · exact .inl rfl
  · have hd : ∀ m ∈ ((fresh.trace bakingApp resetAfter).drop 25).take 3, m.env.mainF = .done := by decide +kernel
    intro m hm
    have : m.env.mainF = .done := by
      simp only [List.mem_cons, List.mem_append, List.not_mem_nil, or_false] at hm
      rcases hm with rfl | hm | rfl
      · exact f1
      · exact hd m hm
      · exact f2
    rw [this]
    trivial
  · exact .reset _ _ (be32 13) ⟨hev, hrun, by decide +kernel, by decide +kernel, 0x06, by decide +kernel, rfl⟩
      (by decide +kernel) (by decide +kernel) hrep

set_option maxRecDepth 100000 in
/-- The hypotheses of `C05_whatever_fails` hold for the signature of event 25 of `rollback`, after the failing write. -/
example : (∀ e ∈ rollback, e.1.mainF.Untorn) ∧
    ∃ a m c x, fresh.trace bakingApp rollback = a ++ m :: c ∧ m.out.sig = some x ∧ isConsensusMagic x.msg = true ∧
      ∃ m' ∈ a, m'.env.mainF = .fails .unchanged := by
  constructor
  · have hd : ∀ e ∈ rollback, e.1.mainF = .done ∨ e.1.mainF = .fails .unchanged := by decide +kernel
    intro e he
    rcases hd e he with h | h <;> rw [h]
    · trivial
    · exact .inl rfl
  · have h : ∃ m, (fresh.trace bakingApp rollback)[25]? = some m ∧
        m.out.sig.map (fun x => isConsensusMagic x.msg) = some true := by
      have : ((fresh.trace bakingApp rollback)[25]?.map fun m =>
          m.out.sig.map (fun x => isConsensusMagic x.msg)) = some (some true) := by decide +kernel
      exact Option.map_eq_some_iff.mp this
    obtain ⟨m, hm, hs⟩ := h
    obtain ⟨x, hx, hc⟩ := Option.map_eq_some_iff.mp hs
    obtain ⟨hlt, hm⟩ := List.getElem?_eq_some_iff.mp hm
    refine ⟨(fresh.trace bakingApp rollback).take 25, m, (fresh.trace bakingApp rollback).drop 26, x, ?_, hx, hc, ?_⟩
    · rw [← hm, ← List.drop_eq_getElem_cons hlt, List.take_append_drop]
    · decide +kernel

/-- After `rollback` the endorsement of level 13, two Tenderbake blocks of one level and round, and one of the next round.
-/
def onwards : List (Env × Event) :=
  rollback ++ sign (emmyEndorsement 13) ++ sign (tbBlock 14 0) ++ sign (tbBlock 14 0 1) ++ sign (tbBlock 14 1)

set_option maxRecDepth 100000 in
theorem onwards_between (i k : Nat) (hi : 25 ≤ i) (m1 m2 : Moment) (h1 : (fresh.trace bakingApp onwards)[i]? = some m1)
    (h2 : (fresh.trace bakingApp onwards)[i + k + 1]? = some m2)
    (hov : ∀ m ∈ ((fresh.trace bakingApp onwards).drop (i + 1)).take (i + k + 1 - (i + 1)),
      ¬ Overrides bakingApp m.st m.ev) :
    BetweenFrom bakingApp ⟨.small, []⟩ onwards m1 m2 := by
  have hd : ∀ m ∈ fresh.trace bakingApp onwards, m.env.mainF = .done ∨ m.env.mainF = .fails .unchanged := by
    decide +kernel
  have hs : ∀ m ∈ (fresh.trace bakingApp onwards).drop 25, m.env.mainF = .done := by decide +kernel
  have hmem : ∀ j m, 25 ≤ j → (fresh.trace bakingApp onwards)[j]? = some m → m.env.mainF = .done := by
    intro j m hj hm
    refine hs m (List.mem_of_getElem? (i := j - 25) ?_)
    rw [List.getElem?_drop, show 25 + (j - 25) = j by omega]
    exact hm
  refine ⟨by decide +kernel, _, _, _, split_at h1 h2 (by omega), hov, ?_, ?_⟩
  · intro m hm
    rcases hd m (List.mem_of_mem_take hm) with h | h <;> rw [h]
    · trivial
    · exact .inl rfl
  · intro m hm
    have : m.env.mainF = .done := by
      simp only [List.mem_cons, List.mem_append, List.not_mem_nil, or_false] at hm
      rcases hm with rfl | hm | rfl
      · exact hmem i _ hi h1
      · obtain ⟨j, hj⟩ := List.mem_iff_getElem?.mp (List.mem_of_mem_take hm)
        rw [List.getElem?_drop] at hj
        exact hmem _ m (by omega) hj
      · exact hmem _ _ (by omega) h2
    rw [this]
    trivial

set_option maxRecDepth 100000 in
/-- The hypotheses of `C03_from_then_on` hold for the signatures of events 25 and 27, those of `C02_from_then_on`
and `C04_from_then_on` for the ones of events 29 and 33; the second block of level 14 and round 0 is refused. -/
example :
    (∃ m1 m2 x1 x2, BetweenFrom bakingApp ⟨.small, []⟩ onwards m1 m2 ∧ m1.out.sig = some x1 ∧ m2.out.sig = some x2 ∧
      consensusItem x1.msg = some ⟨0, 13, 0, 0⟩ ∧ consensusItem x2.msg = some ⟨0, 13, 0, 2⟩) ∧
    (∃ m1 m2 x1 x2, BetweenFrom bakingApp ⟨.small, []⟩ onwards m1 m2 ∧ m1.out.sig = some x1 ∧ m2.out.sig = some x2 ∧
      consensusItem x1.msg = some ⟨1, 14, 0, 0⟩ ∧ consensusItem x2.msg = some ⟨1, 14, 1, 0⟩) ∧
    ((fresh.trace bakingApp onwards)[31]?.map fun m => m.out.reply) = some (some (statusWord .dataInvalid)) := by
  refine ⟨?_, ?_, by decide +kernel⟩
  · obtain ⟨m1, m2, h1, h2, h⟩ := two_moments (es := onwards) (i := 25) (j := 27)
      (P := fun m1 m2 => decide (itemOf m1 = some ⟨0, 13, 0, 0⟩ ∧ itemOf m2 = some ⟨0, 13, 0, 2⟩)) (by decide +kernel)
    simp only [decide_eq_true_eq] at h
    obtain ⟨x1, e1, c1⟩ := itemOf_some h.1
    obtain ⟨x2, e2, c2⟩ := itemOf_some h.2
    exact ⟨m1, m2, x1, x2, onwards_between 25 1 (by omega) m1 m2 h1 h2 (by decide +kernel), e1, e2, c1, c2⟩
  · obtain ⟨m1, m2, h1, h2, h⟩ := two_moments (es := onwards) (i := 29) (j := 33)
      (P := fun m1 m2 => decide (itemOf m1 = some ⟨1, 14, 0, 0⟩ ∧ itemOf m2 = some ⟨1, 14, 1, 0⟩)) (by decide +kernel)
    simp only [decide_eq_true_eq] at h
    obtain ⟨x1, e1, c1⟩ := itemOf_some h.1
    obtain ⟨x2, e2, c2⟩ := itemOf_some h.2
    exact ⟨m1, m2, x1, x2, onwards_between 29 3 (by omega) m1 m2 h1 h2 (by decide +kernel), e1, e2, c1, c2⟩

end Demo

end Tezos
