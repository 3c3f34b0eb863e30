import Verif.Props.Exchange
import Verif.Props.Watermarks
/-
Double signing on the board, where the pending review lies in the exchange buffer: what is compared are the digests
that were signed.
-/
namespace Tezos
open Spec

/-- The app as the code finds it when the input arrives: the pending review is whatever is in its place by then. -/
def Board.found (L : Layout) (x : Board) : Input → Dev
  | .command data => ((x.receive data).load L).dev
  | .relaunch _ => x.dev
  | _ => (x.load L).dev

/-- Two moments of a history of a board from the factory, in that order, with no reset command and no approved setup in
between; the writes of the main watermark complete or are cut by a power loss that the checksum detects. -/
structure BoardBetween (L : Layout) (cfg : Config) (new : NewDevice) (ram : Bytes) (es : List (Env × Input))
    (a1 a2 : Board.At) : Prop where
  sound : ∀ e ∈ es, e.1.mainF.Sound
  short : es.length < 2 ^ 64
  split : ∃ a b c, (Board.factory new ram).trace L cfg es = a ++ a1 :: (b ++ a2 :: c) ∧
    ∀ m ∈ b, ¬ Overrides cfg (m.board.found L m.input) (m.board.event m.input)

/-! ### Reviews that stay what they were -/

theorem forall₂_split {α β : Type} {R : α → β → Prop} {a b : List α} {x : α} {l : List β}
    (h : List.Forall₂ R (a ++ x :: b) l) :
    ∃ a' y b', l = a' ++ y :: b' ∧ List.Forall₂ R a a' ∧ R x y ∧ List.Forall₂ R b b' := by
  induction a generalizing l with
  | nil =>
    cases h with
    | cons h1 h2 => exact ⟨[], _, _, rfl, .nil, h1, h2⟩
  | cons z a ih =>
    cases h with
    | cons h1 h2 =>
      obtain ⟨a', y, b', rfl, h3, h4, h5⟩ := ih h2
      exact ⟨_ :: a', y, b', rfl, .cons h1 h3, h4, h5⟩

theorem forall₂_right {α β : Type} {R : α → β → Prop} {a : List α} {l : List β} (h : List.Forall₂ R a l) {y : β}
    (hy : y ∈ l) : ∃ x ∈ a, R x y := by
  induction h with
  | nil => cases hy
  | cons h1 _ ih =>
    rcases List.mem_cons.mp hy with rfl | hy
    · exact ⟨_, List.mem_cons_self, h1⟩
    · obtain ⟨x, hx, hr⟩ := ih hy
      exact ⟨x, List.mem_cons_of_mem _ hx, hr⟩

theorem Board.sound_at {L : Layout} {cfg : Config} (hcm : cfg.commit.length ≤ 8) {es : List (Env × Input)}
    (hs : ∀ e ∈ es, e.1.cr.Sized) {x : Board} (h : x.Sound L) (hc : ∀ m ∈ x.trace L cfg es, m.board.Clear m.input)
    {m : Board.At} (hm : m ∈ x.trace L cfg es) : m.board.Sound L := by
  induction es generalizing x with
  | nil => cases hm
  | cons e es ih =>
    obtain ⟨env, i⟩ := e
    simp only [Board.trace, List.mem_cons] at hm
    rcases hm with rfl | hm
    · exact h
    · obtain ⟨h1, -⟩ := h.step hcm (hs (env, i) (by simp))
        (hc ⟨x, env, i, (x.step L cfg env i).2⟩ (by simp [Board.trace]))
      exact ih (fun e he => hs e (by simp [he])) h1
        (fun m hm => hc m (by simp only [Board.trace, List.mem_cons]; exact .inr hm)) hm

theorem Overrides.running {cfg : Config} {s : Dev} {ev : Event} (h : Overrides cfg s ev) : s.running = true := by
  cases h with
  | reset buf rx h => exact h.running
  | setup k a m t ch h => exact h.running

theorem Board.Sound.found {L : Layout} {x : Board} (h : x.Sound L) (hrun : x.dev.running = true) {i : Input}
    (hc : x.Clear i) : x.found L i = x.dev := by
  cases i with
  | command data =>
    have hr := h.receive hrun hc
    show ((x.receive data).load L).dev = x.dev
    rw [hr.load hrun]
    rfl
  | relaunch ram => rfl
  | _ => show (x.load L).dev = x.dev; rw [h.load hrun]

theorem BoardBetween.app {L : Layout} {cfg : Config} (hcm : cfg.commit.length ≤ 8) {new : NewDevice} {ram : Bytes}
    {es : List (Env × Input)} {a1 a2 : Board.At} (hb : BoardBetween L cfg new ram es a1 a2)
    (hs : ∀ e ∈ es, e.1.cr.Sized)
    (hc : ∀ m ∈ (Board.factory new ram).trace L cfg es, ∀ data, m.input = .command data → m.board.dev.running = true →
      m.board.dev.view ≠ none → data.length + m.board.size ≤ 260) :
    ∃ evs m1 m2, Between cfg new evs m1 m2 ∧ m1.out = a1.out ∧ m2.out = a2.out := by
  obtain ⟨h1, h2, h3, h4⟩ := (Board.Sound.factory L new ram).run hcm hs hc
  obtain ⟨a, b, c, hsp, hno⟩ := hb.split
  have hall : ∀ m ∈ b, m ∈ (Board.factory new ram).trace L cfg es := fun m hm => by rw [hsp]; simp [hm]
  rw [hsp] at h4
  obtain ⟨a', m1, r, e1, _, g1, h5⟩ := forall₂_split h4
  obtain ⟨b', m2, c', rfl, g2, g3, _⟩ := forall₂_split h5
  refine ⟨_, m1, m2, ⟨?_, ?_, a', b', c', e1, ?_⟩, g1.2.2, g3.2.2⟩
  · intro e he
    obtain ⟨e', he', hr⟩ := forall₂_right h1 he
    have := hb.sound e' he'
    cases hr <;> exact this
  · rw [← h1.length_eq]
    exact hb.short
  · intro m hm ho
    obtain ⟨x, hx, r1, r2, _⟩ := forall₂_right g2 hm
    rw [r1, r2] at ho
    have hsd := Board.sound_at hcm hs (Board.Sound.factory L new ram) hc (hall x hx)
    refine hno x hx ?_
    rw [hsd.found ho.running (hc x (hall x hx))]
    exact ho

/-- **C98, partial.** As long as the commands that arrive during a review are short enough to leave it alone, the digests
signed are those of ever higher consensus messages. `H` is the hash in force; no other messages collide with those that
were signed.

Missing for the full claim: longer commands (`C98_double_signed`); what still holds then is `C98_unasked`. -/
theorem C98_digests_increase_partial (L : Layout) (cfg : Config) (hcm : cfg.commit.length ≤ 8) (new : NewDevice)
    (ram : Bytes) (es : List (Env × Input)) (a1 a2 : Board.At) (hb : BoardBetween L cfg new ram es a1 a2)
    (hs : ∀ e ∈ es, e.1.cr.Sized)
    (hc : ∀ m ∈ (Board.factory new ram).trace L cfg es, ∀ data, m.input = .command data → m.board.dev.running = true →
      m.board.dev.view ≠ none → data.length + m.board.size ≤ 260)
    (H : Bytes → Bytes) (hH : ∀ e ∈ es, ∀ m d, e.1.cr.blake2b 32 m = some d → d = H m)
    (x1 x2 : SigRec) (h1 : a1.out.sig = some x1) (h2 : a2.out.sig = some x2) (m1 m2 : Bytes)
    (d1 : x1.digest = H m1) (d2 : x2.digest = H m2) (n1 : H x1.msg = H m1 → x1.msg = m1)
    (n2 : H x2.msg = H m2 → x2.msg = m2) (c1 : isConsensusMagic m1 = true) (c2 : isConsensusMagic m2 = true) :
    ∃ i1 i2, consensusItem m1 = some i1 ∧ consensusItem m2 = some i2 ∧ Item.lt i1 i2 := by
  have hout : ∀ a : Board.At, a ∈ (Board.factory new ram).trace L cfg es →
      a.out ∈ ((Board.factory new ram).run L cfg es).2 := by
    generalize Board.factory new ram = x
    clear hb hc hH hs
    induction es generalizing x with
    | nil => intro a ha; cases ha
    | cons e es ih =>
      intro a ha
      obtain ⟨env, i⟩ := e
      simp only [Board.trace, List.mem_cons] at ha
      simp only [Board.run, List.mem_cons]
      rcases ha with rfl | ha
      · exact .inl rfl
      · exact .inr (ih _ _ ha)
  obtain ⟨a, b, c, hsp, -⟩ := id hb.split
  have hmsg : ∀ at' : Board.At, at' ∈ (Board.factory new ram).trace L cfg es → ∀ x : SigRec, at'.out.sig = some x →
      ∀ m, x.digest = H m → (H x.msg = H m → x.msg = m) → x.msg = m := by
    intro at' hat x hx m hd hn
    obtain ⟨e, he, hbl⟩ := C80_signed_digest_partial L cfg hcm new ram es hs hc _ (hout _ hat) x hx
    exact hn (by rw [← hH e he _ _ hbl, hd])
  have e1 := hmsg a1 (by rw [hsp]; simp) x1 h1 m1 d1 n1
  have e2 := hmsg a2 (by rw [hsp]; simp) x2 h2 m2 d2 n2
  obtain ⟨evs, q1, q2, hbt, o1, o2⟩ := hb.app hcm hs hc
  rw [← e1] at c1 ⊢
  rw [← e2] at c2 ⊢
  exact C01_consensus_signatures_increase cfg new evs q1 q2 hbt x1 x2 (by rw [o1]; exact h1) (by rw [o2]; exact h2) c1 c2

/-! ### Signatures nobody is asked about -/

theorem Board.reply_dev (room : Nat) (bs : Bytes) (out : Output) (x : Board) :
    (x.reply room bs out).1.dev.main = x.dev.main ∧
      ∀ q, (x.reply room bs out).2.sig = some q → out.sig = some q := by
  unfold Board.reply
  split
  · exact ⟨rfl, fun _ h => h⟩
  · exact ⟨rfl, fun _ h => by cases h⟩

/-- The board does to the main watermark what the app does that the code finds, and signs no more. -/
theorem Board.step_found (L : Layout) (cfg : Config) (env : Env) (i : Input) (x : Board) :
    (x.step L cfg env i).1.dev.main = ((x.found L i).step cfg env (x.event i)).1.main ∧
      ∀ q, (x.step L cfg env i).2.sig = some q → ((x.found L i).step cfg env (x.event i)).2.sig = some q := by
  have hpress : ∀ ev : Event, (ev = .left ∨ ev = .right ∨ ev = .both ∨ ev = .expert) →
      (x.press L cfg env ev).1.dev.main = ((x.load L).dev.step cfg env ev).1.main ∧
        ∀ q, (x.press L cfg env ev).2.sig = some q → ((x.load L).dev.step cfg env ev).2.sig = some q := by
    intro ev hev
    unfold Board.press
    by_cases hrun : x.dev.running = true
    · rw [if_pos hrun]
      dsimp only
      split
      · exact Board.reply_dev _ _ _ _
      · exact ⟨rfl, fun _ h => h⟩
    · rw [if_neg hrun]
      have hr : (x.load L).dev.running = false := by
        show x.dev.running = false
        simpa using hrun
      have hst : ((x.load L).dev.step cfg env ev).1 = (x.load L).dev := by
        rcases hev with rfl | rfl | rfl | rfl <;> simp [Dev.step, hr]
      rw [hst]
      exact ⟨rfl, fun _ h => by cases h⟩
  cases i with
  | command data =>
    show (if x.dev.running then
        ((x.receive data).load L).handle L cfg env (data.take exchangeSize).length else (x, .quiet)).1.dev.main =
        (if ((x.receive data).load L).dev.running then
          (((x.receive data).load L).dev.dispatch cfg env (x.receive data).buf (data.take exchangeSize).length).deliver
        else (((x.receive data).load L).dev, .quiet)).1.main ∧
      ∀ q, (if x.dev.running then
        ((x.receive data).load L).handle L cfg env (data.take exchangeSize).length else (x, .quiet)).2.sig = some q →
        (if ((x.receive data).load L).dev.running then
          (((x.receive data).load L).dev.dispatch cfg env (x.receive data).buf (data.take exchangeSize).length).deliver
        else (((x.receive data).load L).dev, .quiet)).2.sig = some q
    by_cases hrun : x.dev.running = true
    · rw [if_pos hrun, if_pos (show ((x.receive data).load L).dev.running = true from hrun)]
      unfold Board.handle
      dsimp only
      generalize hx : ({ ((x.receive data).load L) with
        dev := (((x.receive data).load L).dev.dispatch cfg env ((x.receive data).load L).buf
          (List.take exchangeSize data).length).deliver.1 } : Board) = y
      have hy : y.dev = (((x.receive data).load L).dev.dispatch cfg env ((x.receive data).load L).buf
          (List.take exchangeSize data).length).deliver.1 := by rw [← hx]
      have hbuf : ((x.receive data).load L).buf = (x.receive data).buf := rfl
      rw [hbuf] at hy ⊢
      split
      · rw [← hy]; exact Board.reply_dev _ _ _ _
      · rw [← hy]; exact Board.reply_dev _ _ _ _
      · rw [← hy]
        split
        · exact Board.reply_dev _ _ _ (y.store L _)
        · exact Board.reply_dev _ _ _ _
      · rw [hy]; exact ⟨rfl, fun _ h => h⟩
    · rw [if_neg hrun, if_neg (show ¬ ((x.receive data).load L).dev.running = true from hrun)]
      exact ⟨rfl, fun _ h => h⟩
  | left => exact hpress _ (.inl rfl)
  | right => exact hpress _ (.inr (.inl rfl))
  | both => exact hpress _ (.inr (.inr (.inl rfl)))
  | expert => exact hpress _ (.inr (.inr (.inr rfl)))
  | relaunch ram => exact ⟨rfl, fun _ h => by cases h⟩

theorem Board.step_main {L : Layout} {cfg : Config} {env : Env} {i : Input} {x : Board} {n : Nat} {c : Cell}
    (h : x.dev.main.Holds n c) (hf : env.mainF.Sound) (hn : n + 1 < 2 ^ 64) :
    ∃ c', (x.step L cfg env i).1.dev.main.Holds (n + 1) c' ∧
      (MainStep cfg env (x.event i) (x.found L i) ((x.found L i).step cfg env (x.event i)).2 c c' ∨
        (c' = c ∧ ∃ v, Approves (x.found L i) (x.event i) v)) := by
  have hm : (x.found L i).main = x.dev.main := by cases i <;> rfl
  obtain ⟨c', h1, h2⟩ := (x.found L i).step_main_any (cfg := cfg) (env := env) (ev := x.event i)
    (by rw [hm]; exact h) hf hn
  exact ⟨c', by rw [(Board.step_found L cfg env i x).1]; exact h1, h2⟩

theorem Board.run_main {L : Layout} {cfg : Config} {x : Board} {es : List (Env × Input)} {n : Nat} {c : Cell}
    (h : x.dev.main.Holds n c) (he : ∀ e ∈ es, e.1.mainF.Sound) (hn : n + es.length < 2 ^ 64) :
    ∃ c', (x.run L cfg es).1.dev.main.Holds (n + es.length) c' := by
  induction es generalizing x n c with
  | nil => exact ⟨c, h⟩
  | cons e es ih =>
    obtain ⟨c', h1, _⟩ := x.step_main (L := L) (cfg := cfg) (i := e.2) h (he e (by simp)) (by simp at hn; omega)
    obtain ⟨c'', h2⟩ := ih h1 (fun e hh => he e (by simp [hh])) (by simp at hn ⊢; omega)
    exact ⟨c'', by simpa [Board.run, Nat.add_assoc, Nat.add_comm 1] using h2⟩

theorem Board.above_run {L : Layout} {cfg : Config} {x : Board} {es : List (Env × Input)} {n : Nat} {c : Cell}
    {it : Item} (h : x.dev.main.Holds n c) (ha : c.Above it) (he : ∀ e ∈ es, e.1.mainF.Sound)
    (hn : n + es.length < 2 ^ 64)
    (ho : ∀ m ∈ x.trace L cfg es, ¬ Overrides cfg (m.board.found L m.input) (m.board.event m.input)) :
    ∃ c', (x.run L cfg es).1.dev.main.Holds (n + es.length) c' ∧ c'.Above it := by
  induction es generalizing x n c with
  | nil => exact ⟨c, h, ha⟩
  | cons e es ih =>
    obtain ⟨c', h1, hm⟩ := x.step_main (L := L) (cfg := cfg) (i := e.2) h (he e (by simp)) (by simp at hn; omega)
    have ha' : c'.Above it := by
      rcases hm with hm | ⟨rfl, _⟩
      · exact ha.step hm (ho ⟨x, e.1, e.2, (x.step L cfg e.1 e.2).2⟩ (by simp [Board.trace]))
      · exact ha
    obtain ⟨c'', h2, h3⟩ := ih h1 ha' (fun e hh => he e (by simp [hh])) (by simp at hn ⊢; omega)
      (fun m hm => ho m (by simp [Board.trace, hm]))
    exact ⟨c'', by simpa [Board.run, Nat.add_assoc, Nat.add_comm 1] using h2, h3⟩

theorem Board.trace_split {L : Layout} {cfg : Config} {x : Board} {es : List (Env × Input)} {a b : List Board.At}
    {m : Board.At} (h : x.trace L cfg es = a ++ m :: b) :
    ∃ ea eb, es = ea ++ (m.env, m.input) :: eb ∧ ea.length = a.length ∧ a = x.trace L cfg ea ∧
      m.board = (x.run L cfg ea).1 ∧ m.out = (m.board.step L cfg m.env m.input).2 ∧
      b = (m.board.step L cfg m.env m.input).1.trace L cfg eb := by
  induction a generalizing x es with
  | nil =>
    cases es with
    | nil => simp [Board.trace] at h
    | cons e es =>
      simp only [Board.trace, List.nil_append, List.cons.injEq] at h
      obtain ⟨rfl, rfl⟩ := h
      exact ⟨[], es, rfl, rfl, rfl, rfl, rfl, rfl⟩
  | cons y ys ih =>
    cases es with
    | nil => simp [Board.trace] at h
    | cons e es =>
      simp only [Board.trace, List.cons_append, List.cons.injEq] at h
      obtain ⟨rfl, h⟩ := h
      obtain ⟨ea, eb, rfl, h1, rfl, h3, h4, h5⟩ := ih h
      exact ⟨e :: ea, eb, rfl, by simp [h1], rfl, h3, h4, h5⟩

/-- A signature in reply to a command. -/
theorem Board.command_signed {L : Layout} {cfg : Config} {env : Env} {data : Bytes} {x : Board} {n : Nat} {c : Cell}
    (h : x.dev.main.Holds n c) (hf : env.mainF.Sound) (hn : n + 1 < 2 ^ 64) {q : SigRec}
    (hq : (x.step L cfg env (.command data)).2.sig = some q) :
    env.cr.blake2b 32 q.msg = some q.digest ∧ ∃ b it, c = .val b ∧ consensusItem q.msg = some it ∧
      Item.lt (WaterMark.decode b).item it ∧
      (x.step L cfg env (.command data)).1.dev.main.Holds (n + 1) (.val (WaterMark.ofItem it).encode) := by
  have hq' := (Board.step_found L cfg env (.command data) x).2 q hq
  have hsg := Dev.step_signed hq'
  obtain ⟨hmag, hd⟩ : isConsensusMagic q.msg = true ∧ env.cr.blake2b 32 q.msg = some q.digest := by
    cases hsg with
    | review hh p ha => exact absurd ha.ev (by simp [Board.event])
    | delegation hh r o ha => exact absurd ha.ev (by simp [Board.event])
    | consensus hh buf rx hrec u q2 first ref hu hcv hp hk hd hs hr b it hb hi => exact ⟨consensusItem_magic hi, hd⟩
  obtain ⟨c', h1, hm | ⟨_, v, ha⟩⟩ := x.step_main (L := L) (cfg := cfg) (i := .command data) h hf hn
  · refine ⟨hd, ?_⟩
    cases hm with
    | same _ hs => rw [hs q hq'] at hmag; cases hmag
    | override _ _ _ hs => rw [hs] at hq'; cases hq'
    | advance b m it hb hi hl hlt hc hs =>
      obtain ⟨rfl, rfl, _⟩ := hs q hq'
      exact ⟨b, it, hb, hi, hlt, h1⟩
  · exact absurd ha.ev (by simp [Board.event])

/-- C98: whatever commands arrive during reviews, the signatures given in reply to a command, without asking the user,
are of the digests of ever higher consensus messages. -/
theorem C98_unasked (L : Layout) (cfg : Config) (new : NewDevice) (ram : Bytes) (es : List (Env × Input))
    (a1 a2 : Board.At) (hb : BoardBetween L cfg new ram es a1 a2) (data1 data2 : Bytes)
    (hi1 : a1.input = .command data1) (hi2 : a2.input = .command data2) (x1 x2 : SigRec) (h1 : a1.out.sig = some x1)
    (h2 : a2.out.sig = some x2) :
    a1.env.cr.blake2b 32 x1.msg = some x1.digest ∧ a2.env.cr.blake2b 32 x2.msg = some x2.digest ∧
      ∃ i1 i2, consensusItem x1.msg = some i1 ∧ consensusItem x2.msg = some i2 ∧ Item.lt i1 i2 := by
  obtain ⟨hes, hlen, a, b, c, h, ho⟩ := hb
  obtain ⟨ea, eb, rfl, hla, rfl, hst1, ho1, hrest⟩ := Board.trace_split h
  obtain ⟨ec, ed, rfl, hlb, rfl, hst2, ho2, _⟩ := Board.trace_split hrest.symm
  simp only [List.length_append, List.length_cons] at hlen
  obtain ⟨cell1, hc1⟩ := Board.run_main (L := L) (cfg := cfg) (x := Board.factory new ram) (es := ea) (n := 0)
    (c := .blank) (Store.Holds.fresh (by omega)) (fun e he => hes e (by simp [he])) (by omega)
  rw [← hst1, Nat.zero_add] at hc1
  rw [ho1, hi1] at h1
  obtain ⟨d1, b1, i1, _, e1, _, hc1'⟩ :=
    Board.command_signed hc1 (hes (a1.env, a1.input) (by simp)) (by omega) h1
  rw [← hi1] at hc1'
  obtain ⟨cell2, hc2, ha2⟩ := Board.above_run (L := L) (cfg := cfg) (es := ec) hc1' (Cell.Above.ofItem e1)
    (fun e he => hes e (by simp [he])) (by omega) ho
  rw [← hst2] at hc2
  rw [ho2, hi2] at h2
  obtain ⟨d2, b2, i2, hb2, e2, hlt, _⟩ :=
    Board.command_signed hc2 (hes (a2.env, a2.input) (by simp)) (by omega) h2
  exact ⟨d1, d2, i1, i2, e1, e2, ha2.lt hb2 hlt⟩

/-! ### What goes wrong -/

namespace Demo

/-- Setting up the key `keyPath`. -/
def setupInputs : List Input :=
  cmd 0x0A 0 0 (mainnet ++ be32 1 ++ be32 0 ++ keyPath) :: List.replicate 6 Input.right ++ [Input.both]

/-- 260 bytes no command starts with, ending with a digest and the flag of a review. -/
def planted (digest : Bytes) : Input := .command (List.replicate 227 7 ++ digest ++ [0])

/-- Two Tenderbake blocks of one level and round. -/
def block1 : Bytes := tbBlock 5 0 1
def block2 : Bytes := tbBlock 5 0 2

/-- The first block is signed. Then a delegation is put before the user, and the digest of the second block is sent
before they approve it. -/
def slotTwice : List (Env × Input) :=
  (setupInputs ++ [cmd 0x04 0 0 keyPath, cmd 0x04 0x81 0 block1] ++
    during [planted (hash 32 block2)] delegation 11).map (fine, ·)

end Demo

/-- What was signed at a moment, and with which key. -/
def Board.At.signed (a : Board.At) : Option (Curve × Path × Bytes) := a.out.sig.map fun x => (x.curve, x.path, x.digest)

theorem board_between {L : Layout} {cfg : Config} {new : NewDevice} {ram : Bytes} {es : List (Env × Input)} {i j : Nat}
    {a1 a2 : Board.At} (hes : ∀ e ∈ es, e.1.mainF.Sound) (hlen : es.length < 2 ^ 64)
    (h1 : ((Board.factory new ram).trace L cfg es)[i]? = some a1)
    (h2 : ((Board.factory new ram).trace L cfg es)[j]? = some a2) (hij : i < j)
    (ho : ∀ m ∈ (((Board.factory new ram).trace L cfg es).drop (i + 1)).take (j - (i + 1)),
      ¬ Overrides cfg (m.board.found L m.input) (m.board.event m.input)) : BoardBetween L cfg new ram es a1 a2 := by
  refine ⟨hes, hlen, ((Board.factory new ram).trace L cfg es).take i, _,
    ((Board.factory new ram).trace L cfg es).drop (j + 1), ?_, ho⟩
  · generalize (Board.factory new ram).trace L cfg es = t at h1 h2
    obtain ⟨hi, rfl⟩ := List.getElem?_eq_some_iff.mp h1
    obtain ⟨hj, rfl⟩ := List.getElem?_eq_some_iff.mp h2
    have e2 : (t.drop (i + 1)).drop (j - (i + 1)) = t[j] :: t.drop (j + 1) := by
      rw [List.drop_drop, show i + 1 + (j - (i + 1)) = j by omega]
      exact List.drop_eq_getElem_cons hj
    rw [← e2, List.take_append_drop, ← List.drop_eq_getElem_cons hi, List.take_append_drop]

open Demo in
set_option maxRecDepth 100000 in
/-- C98 is false if long commands arrive during a review: with one key, and without a reset, the digests of two Tenderbake
blocks of the same level and round are signed. The second was sent, in a request that was refused, while the user was
reading a delegation, which they approved. -/
theorem C98_double_signed : ∃ (L : Layout) (es : List (Env × Input)) (a1 a2 : Board.At) (m1 m2 : Bytes) (c : Curve)
    (p : Path) (it : Item), BoardBetween L bakingApp ⟨.small, []⟩ [] es a1 a2 ∧
      a1.signed = some (c, p, hash 32 m1) ∧ a2.signed = some (c, p, hash 32 m2) ∧
      m1 ≠ m2 ∧ consensusItem m1 = some it ∧ consensusItem m2 = some it := by
  have hw : ((board.trace layout bakingApp slotTwice)[9]?.bind Board.At.signed =
        some (.ed25519, [0x8000002c, 0x800006c1], hash 32 block1) ∧
      (board.trace layout bakingApp slotTwice)[24]?.bind Board.At.signed =
        some (.ed25519, [0x8000002c, 0x800006c1], hash 32 block2) ∧
      (∀ e ∈ slotTwice, e.1.mainF.Sound) ∧ slotTwice.length < 2 ^ 64 ∧
      (∀ m ∈ ((board.trace layout bakingApp slotTwice).drop (9 + 1)).take (24 - (9 + 1)),
        ¬ Overrides bakingApp (m.board.found layout m.input) (m.board.event m.input))) ∧
      block1 ≠ block2 ∧ consensusItem block1 = some ⟨1, 5, 0, 0⟩ ∧ consensusItem block2 = some ⟨1, 5, 0, 0⟩ := by
    decide +kernel
  obtain ⟨⟨h1, h2, h3, h4, h5⟩, h6, h7, h8⟩ := hw
  obtain ⟨a1, e1, s1⟩ := Option.bind_eq_some_iff.mp h1
  obtain ⟨a2, e2, s2⟩ := Option.bind_eq_some_iff.mp h2
  exact ⟨layout, slotTwice, a1, a2, block1, block2, _, _, _, board_between h3 h4 e1 e2 (by omega) h5, s1, s2, h6, h7, h8⟩

open Demo in
set_option maxRecDepth 100000 in
/-- The hypotheses of `C98_unasked` and, with `H` the hash, of `C98_digests_increase_partial`: two blocks, and between
them a review during which the version is asked for. -/
example :
    let es := (setupInputs ++ [cmd 0x04 0 0 keyPath, cmd 0x04 0x81 0 block1] ++ during [cmd 0 0 0 []] delegation 11 ++
      [cmd 0x04 0 0 keyPath, cmd 0x04 0x81 0 (tbBlock 5 1 2)]).map (fine, ·)
    let t := board.trace layout bakingApp es
    t[9]?.bind Board.At.signed = some (.ed25519, [0x8000002c, 0x800006c1], hash 32 block1) ∧
      t[26]?.bind Board.At.signed = some (.ed25519, [0x8000002c, 0x800006c1], hash 32 (tbBlock 5 1 2)) ∧
      (∀ m ∈ (t.drop 10).take 16, ¬ Overrides bakingApp (m.board.found layout m.input) (m.board.event m.input)) ∧
      (∀ m ∈ t, m.board.dev.running = true → m.board.dev.view ≠ none →
        (match m.input with | .command d => d.length | _ => 0) + m.board.size ≤ 260) := by
  decide +kernel

end Tezos
