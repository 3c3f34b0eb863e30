import Verif.Sessions
import Verif.Reread
/-
Where the pending review comes from along a history, and what stays as it was while the user goes through it.
-/
set_option linter.unusedSimpArgs false
namespace Tezos

/-! ### The moment that opened the review -/

/-- The event of this moment opens a review. -/
def Moment.Opens (cfg : Config) (m : Moment) (v : View) : Prop := OpensAt cfg m.env m.st m.ev v (m.next cfg)

theorem Dev.run_view {cfg : Config} {s : Dev} {es : List (Env × Event)} {v : View}
    (h : (s.run cfg es).1.view = some v) :
    (s.view = some v ∧ ∀ x ∈ s.trace cfg es, x.st.view = some v ∧ ∀ w, ¬ x.Opens cfg w) ∨
    ∃ a m0 b, s.trace cfg es = a ++ m0 :: b ∧ m0.Opens cfg v ∧ ∀ x ∈ b, x.st.view = some v ∧ ∀ w, ¬ x.Opens cfg w := by
  induction es generalizing s with
  | nil => exact .inl ⟨h, fun x hx => by cases hx⟩
  | cons e es ih =>
    rcases ih (s := (s.step cfg e.1 e.2).1) h with ⟨hv, hall⟩ | ⟨a, m0, b, ht, ho, hall⟩
    · by_cases hop : ∃ w, OpensAt cfg e.1 s e.2 w (s.step cfg e.1 e.2).1
      · obtain ⟨w, hw⟩ := hop
        have := hw.view
        rw [hv] at this
        cases this
        exact .inr ⟨[], ⟨s, e.1, e.2, (s.step cfg e.1 e.2).2⟩, _, rfl, hw, hall⟩
      · rcases s.step_view cfg e.1 e.2 with h' | h' | h'
        · left
          have hs : s.view = some v := by rw [← h', hv]
          refine ⟨hs, fun x hx => ?_⟩
          rcases List.mem_cons.mp hx with rfl | hx
          · exact ⟨hs, fun w hw => hop ⟨w, hw⟩⟩
          · exact hall x hx
        · rw [h'] at hv
          cases hv
        · exact absurd h' hop
    · refine .inr ⟨⟨s, e.1, e.2, (s.step cfg e.1 e.2).2⟩ :: a, m0, b, ?_, ho, hall⟩
      show _ :: _ = _
      rw [ht]
      rfl

/-- The pending review was opened by an earlier event, and has been pending since; no other was opened. -/
theorem Dev.trace_view {cfg : Config} {s : Dev} {es : List (Env × Event)} {a c : List Moment} {m : Moment} {v : View}
    (h : s.trace cfg es = a ++ m :: c) (h0 : s.view = none) (hv : m.st.view = some v) :
    ∃ a1 m0 b, a = a1 ++ m0 :: b ∧ m0.Opens cfg v ∧ ∀ x ∈ b, x.st.view = some v ∧ ∀ w, ¬ x.Opens cfg w := by
  obtain ⟨ea, eb, rfl, hlen, ha, hm, _, _⟩ := Dev.trace_split h
  rw [hm] at hv
  rcases Dev.run_view hv with ⟨h', _⟩ | h'
  · rw [h0] at h'
    cases h'
  · rw [ha]
    exact h'

/-! ### Going through a review -/

/-- The event comes from the user or from nobody: it is not a command. -/
def Event.isButton : Event → Bool
  | .apdu .. => false
  | _ => true

/-- The event carries no packet of a signing command and opens no review. -/
structure Moment.Calm (cfg : Config) (m : Moment) : Prop where
  packet : m.ev.packet cfg.build = none
  opens : ∀ w, ¬ m.Opens cfg w

/-- What stays while a review is pending and no signing command comes in. -/
structure Kept (s s' : Dev) : Prop where
  view : s'.view = s.view
  path : s'.path = s.path
  upl : s'.upl = s.upl
  key : s'.key = s.key

theorem Kept.refl (s : Dev) : Kept s s := ⟨rfl, rfl, rfl, rfl⟩

theorem Kept.trans {a b c : Dev} (h1 : Kept a b) (h2 : Kept b c) : Kept a c :=
  ⟨h2.1.trans h1.1, h2.2.trans h1.2, h2.3.trans h1.3, h2.4.trans h1.4⟩

theorem Dev.resetHwm_ram (env : Env) (l : UInt32) (s : Dev) :
    Kept s (s.resetHwm env l).st ∧ (s.resetHwm env l).st.zui = s.zui := by
  cases s.resetHwm_cases env l with
  | main _ hst _ => rw [hst]; exact ⟨⟨rfl, rfl, rfl, rfl⟩, rfl⟩
  | test _ _ hst _ => rw [hst]; exact ⟨⟨rfl, rfl, rfl, rfl⟩, rfl⟩
  | chain _ _ hst _ => rw [hst]; exact ⟨⟨rfl, rfl, rfl, rfl⟩, rfl⟩
  | init _ _ _ hst _ => rw [hst]; exact ⟨⟨rfl, rfl, rfl, rfl⟩, rfl⟩

theorem Res.deliver_kept (r : Res) : Kept r.st r.deliver.1 ∧ r.deliver.1.zui = r.st.zui := by
  unfold Res.deliver
  split <;> exact ⟨⟨rfl, rfl, rfl, rfl⟩, rfl⟩

/-- A command that is not a signing command and opens no review changes nothing the pending review depends on. -/
theorem Dev.apdu_calm {cfg : Config} {env : Env} {buf : Bytes} {rx : Nat} {s : Dev} {v : View}
    (hb : (Event.apdu buf rx).packet cfg.build = none)
    (hop : ∀ w, ¬ OpensAt cfg env s (.apdu buf rx) w (s.step cfg env (.apdu buf rx)).1)
    (h : (s.step cfg env (.apdu buf rx)).1.view = some v) :
    Kept s (s.step cfg env (.apdu buf rx)).1 ∧ (s.step cfg env (.apdu buf rx)).1.zui = s.zui := by
  rcases s.apdu_cases cfg env buf rx with ⟨h', _⟩ | ⟨c, hrec, h'⟩
  · rw [h']
    exact ⟨.refl s, rfl⟩
  have hacc : c.accessor = none := by
    rw [hrec.packet] at hb
    simpa using hb
  have hd := (s.exec cfg env c (buf.getD 2 0) (buf.getD 3 0) (apduPayload buf)).deliver_kept
  rw [← h'] at hd
  have hupl := Dev.exec_upl cfg env c (buf.getD 2 0) (buf.getD 3 0) (apduPayload buf) s
  rw [hacc] at hupl
  dsimp only at hupl
  cases s.exec_cases cfg env c (buf.getD 2 0) (buf.getD 3 0) (apduPayload buf) with
  | still p u hs hp =>
    have hp : p = s.path := by
      rcases hp with hp | ⟨h, k, rfl, _⟩
      · exact hp
      · cases hacc
    rw [hs.1] at hupl hd
    have : u = s.upl := hupl
    subst hp this
    exact hd
  | opened w p u u' ho hout hsig hst hupl =>
    rcases (s.withUpload p u).show_view env w with hv | hv
    · exact absurd (Dev.opened_at hrec ho hout hst hupl hv) (hop w)
    · have := hd.1.view
      rw [hst, h] at this
      simp [hv] at this
  | reset p hc hp hl hr =>
    rw [hr] at hd
    obtain ⟨h1, h2⟩ := s.resetHwm_ram env (u32OfBe (p.take 4))
    exact ⟨h1.trans hd.1, hd.2.trans h2⟩
  | auto hh u u' q2 first m ref k digest hc hu hcv hp hk hd' hmg hout hs hst =>
    rw [hc] at hacc
    cases hacc

theorem Dev.redraw_kept {u : Upd} {s : Dev} {v : View} (h : (s.redraw u).1.view = some v) : Kept s (s.redraw u).1 := by
  unfold Dev.redraw at h ⊢
  cases u with
  | rejected z =>
    exfalso
    have hr := Dev.reject_view { s with zui := z }
    change ({ s with zui := z } : Dev).reject.1.view = some v at h
    rw [hr] at h
    cases h
  | _ => exact ⟨rfl, rfl, rfl, rfl⟩

theorem Dev.onError_kept {c : Bool} {f : XError → XError} {s : Dev} {v : View} (h : (s.onError c f).1.view = some v) :
    Kept s (s.onError c f).1 := by
  unfold Dev.onError at h ⊢
  split
  · rename_i hc
    rw [if_pos hc, s.acceptError_view] at h
    cases h
  · exact ⟨rfl, rfl, rfl, rfl⟩

theorem Dev.pressBoth_kept {env : Env} {s : Dev} {v : View} (h : (s.pressBoth env).1.view = some v) :
    s.zui.chosen = .nothing ∧ Kept s (s.pressBoth env).1 := by
  unfold Dev.pressBoth at h ⊢
  dsimp only at h ⊢
  have gone : ∀ (r : Dev × Output), r.1.view = none → (if r.1.running = true ∧ r.1.zui.jumps = true then
        ((r.1.redraw (r.1.zui.expertJump (r.1.viewer env))).1,
          (⟨r.2.reply <|> (r.1.redraw (r.1.zui.expertJump (r.1.viewer env))).2.reply, r.2.sig,
            r.2.fault <|> (r.1.redraw (r.1.zui.expertJump (r.1.viewer env))).2.fault⟩ : Output))
        else r).1.view = none := by
    intro r hr
    split
    · rcases r.1.redraw_view (r.1.zui.expertJump (r.1.viewer env)) with h | h
      · exact h.trans hr
      · exact h
    · exact hr
  cases ha : s.zui.chosen with
  | approve =>
    simp only [ha] at h
    rw [gone _ (s.approve_view env)] at h
    cases h
  | reject =>
    simp only [ha] at h
    rw [gone _ s.reject_view] at h
    cases h
  | nothing =>
    refine ⟨rfl, ?_⟩
    simp only [ha] at h ⊢
    split
    · rename_i hc
      rw [if_pos hc] at h
      exact Dev.redraw_kept h
    · exact .refl s

/-- An event that leaves a review pending, is no signing packet and opens no other, changes nothing the review depends
on. -/
theorem Dev.step_calm {cfg : Config} {env : Env} {ev : Event} {s : Dev} {v : View}
    (hb : ev.packet cfg.build = none) (hop : ∀ w, ¬ OpensAt cfg env s ev w (s.step cfg env ev).1)
    (h : (s.step cfg env ev).1.view = some v) : Kept s (s.step cfg env ev).1 := by
  cases ev with
  | apdu buf rx => exact (Dev.apdu_calm hb hop h).1
  | relaunch => cases h
  | left =>
    simp only [Dev.step] at h ⊢
    split
    · rename_i hr
      simp only [hr, if_true] at h
      split
      · rename_i hs
        simp only [hs] at h
        exact Dev.redraw_kept h
      · rename_i hs
        simp only [hs] at h
        exact Dev.onError_kept h
      · exact .refl s
    · exact .refl s
  | right =>
    simp only [Dev.step] at h ⊢
    split
    · rename_i hr
      simp only [hr, if_true] at h
      split
      · rename_i hs
        simp only [hs] at h
        exact Dev.redraw_kept h
      · rename_i hs
        simp only [hs] at h
        exact Dev.onError_kept h
      · exact .refl s
    · exact .refl s
  | both =>
    simp only [Dev.step] at h ⊢
    split
    · rename_i hr
      simp only [hr, if_true] at h
      split
      · rename_i hs
        simp only [hs] at h
        exact (Dev.pressBoth_kept h).2
      · rename_i hs
        simp only [hs] at h
        exact Dev.onError_kept h
      · exact .refl s
    · exact .refl s
  | expert =>
    simp only [Dev.step] at h ⊢
    split <;> exact ⟨rfl, rfl, rfl, rfl⟩

/-- The same over a stretch of a history. -/
theorem Dev.run_kept {cfg : Config} {s : Dev} {es : List (Env × Event)} {v : View}
    (hb : ∀ x ∈ s.trace cfg es, x.Calm cfg) (hv : ∀ x ∈ s.trace cfg es, x.st.view = some v)
    (h : (s.run cfg es).1.view = some v) :
    Kept s (s.run cfg es).1 ∧ ∀ x ∈ s.trace cfg es, Kept s x.st := by
  induction es generalizing s with
  | nil => exact ⟨.refl s, fun x hx => by cases hx⟩
  | cons e es ih =>
    have hb1 : Moment.Calm cfg ⟨s, e.1, e.2, (s.step cfg e.1 e.2).2⟩ := hb ⟨s, e.1, e.2, (s.step cfg e.1 e.2).2⟩ (by simp [Dev.trace])
    have hv1 : (s.step cfg e.1 e.2).1.view = some v := by
      cases es with
      | nil => exact h
      | cons e' es' => exact hv _ (List.mem_cons_of_mem _ (List.mem_cons_self ..))
    have h1 := Dev.step_calm hb1.1 hb1.2 hv1
    obtain ⟨h2, h3⟩ := ih (s := (s.step cfg e.1 e.2).1) (fun x hx => hb x (List.mem_cons_of_mem _ hx))
      (fun x hx => hv x (List.mem_cons_of_mem _ hx)) h
    refine ⟨h1.trans h2, fun x hx => ?_⟩
    rcases List.mem_cons.mp hx with rfl | hx
    · exact .refl s
    · exact h1.trans (h3 x hx)

/-- From opening a review to a later moment at which it is pending, with no signing packet in between, nothing changes
that the review depends on. -/
theorem Dev.trace_kept {cfg : Config} {s : Dev} {es : List (Env × Event)} {a b c : List Moment} {m0 m : Moment}
    {v : View} (h : s.trace cfg es = a ++ m0 :: (b ++ m :: c)) (hb : ∀ x ∈ b, x.Calm cfg)
    (hv : ∀ x ∈ b, x.st.view = some v) (hm : m.st.view = some v) :
    ∀ x ∈ b ++ [m], Kept (m0.next cfg) x.st := by
  obtain ⟨ea, eb, rfl, _, _, _, _, hrest⟩ := Dev.trace_split h
  obtain ⟨ec, ed, rfl, _, hb', hm', _, _⟩ := Dev.trace_split hrest.symm
  rw [hb'] at hb hv
  rw [hm'] at hm
  obtain ⟨h1, h2⟩ := Dev.run_kept hb hv hm
  intro x hx
  rcases List.mem_append.mp hx with hx | hx
  · rw [hb'] at hx
    exact h2 x hx
  · rw [List.mem_singleton.mp hx, hm']
    exact h1

/-! ### What a signing review refers to -/

theorem slice_drop_take {mem : Bytes} {n k : Nat} {d0 : UInt8} {tail : Bytes} (h : mem.take n = d0 :: tail)
    (hk : k ≤ tail.length) : slice mem (1 + k) (tail.length - k) = tail.drop k := by
  have hl := congrArg List.length h
  simp only [List.length_take, List.length_cons] at hl
  have h2 : mem.take (1 + tail.length) = d0 :: tail := by
    rw [← h]
    by_cases hc : n ≤ mem.length
    · congr 1; omega
    · rw [List.take_of_length_le (by omega), List.take_of_length_le (by omega)]
  unfold slice
  have h3 : (mem.take (1 + tail.length)).drop (1 + k) = tail.drop k := by
    rw [h2, Nat.add_comm, List.drop_succ_cons]
  rw [List.drop_take] at h3
  rw [show 1 + tail.length - (1 + k) = tail.length - k by omega] at h3
  exact h3

theorem UplRes.ofWrite_ne {w : WriteRes} {q2 : UInt8} {first data : Bytes} {ref : MemRef} :
    UplRes.ofWrite w ≠ some (.complete q2 first data ref) := by
  cases w <;> simp [UplRes.ofWrite]

/-- The reference handed to the command is to its data. -/
theorem Completes.ref_get {env : Env} {s : Dev} {acc : Accessor} {p1 p2 q2 : UInt8} {payload : Option Bytes}
    {first data : Bytes} {u : Upl} {ref : MemRef} (h : Completes env s acc p1 p2 payload u q2 first data ref) :
    ref.get u.buf = data ∧ ref.len = data.length := by
  have h := h.eq
  unfold Upl.upload at h
  have last : ∀ (w : Upl), (match w.buf.readExact with
      | [] => (w, UplRes.panic)
      | d0 :: tail =>
        if w.initLen ≤ tail.length then
          (w, .complete d0 (tail.take w.initLen) (tail.drop w.initLen)
            ⟨w.buf.inFlash, 1 + w.initLen, tail.length - w.initLen⟩)
        else (w, .panic)) = (u, .complete q2 first data ref) →
      ref.get u.buf = data ∧ ref.len = data.length := by
    intro w h
    split at h
    · cases h
    · rename_i d0 tail hread
      split at h
      · rename_i hle
        simp only [Prod.mk.injEq, UplRes.complete.injEq] at h
        obtain ⟨rfl, rfl, rfl, rfl, rfl⟩ := h
        refine ⟨?_, by simp⟩
        unfold SwapBuf.readExact at hread
        unfold MemRef.get
        dsimp only
        split at hread
        · rename_i hf
          simp only [hf, if_true]
          exact slice_drop_take hread hle
        · rename_i hf
          simp only [hf]
          exact slice_drop_take hread hle
      · cases h
  split at h
  · cases h
  · split at h
    · dsimp only at h
      split at h
      · rename_i o hw
        cases h
        exact absurd hw UplRes.ofWrite_ne
      · split at h
        · cases h
        · split at h
          · rename_i o hw
            cases h
            exact absurd hw UplRes.ofWrite_ne
          · cases h
    · split at h
      · split at h
        · cases h
        · split at h
          · cases h
          · dsimp only at h
            split at h
            · rename_i o hw
              cases h
              exact absurd hw UplRes.ofWrite_ne
            · cases h
      · split at h
        · split at h
          · cases h
          · cases payload with
            | none => exact last ⟨s.upl.lock, s.upl.buf, s.upl.initLen⟩ h
            | some pl =>
              dsimp only at h
              split at h
              · rename_i o hw
                cases h
                exact absurd hw UplRes.ofWrite_ne
              · exact last ⟨s.upl.lock, (s.upl.buf.write env.copyF env.appendF pl).1, s.upl.initLen⟩ h
        · cases h

/-- The contents of the upload memory: what references see. -/
theorem MemRef.get_reset (r : MemRef) (b : SwapBuf) : r.get b.reset = r.get b := rfl

theorem Upl.drop_get (acc : Accessor) (u : Upl) (r : MemRef) : r.get (u.drop acc).buf = r.get u.buf := by
  unfold Upl.drop
  split <;> rfl

theorem slice_slice_take {mem : Bytes} {o n : Nat} {b : UInt8} {rem : Bytes} (h : slice mem o n = b :: rem) (k : Nat)
    (hk : k ≤ rem.length) : slice mem (o + 1) k = rem.take k := by
  unfold slice at h ⊢
  have h1 : ((mem.drop o).take n).drop 1 = rem := by rw [h]; rfl
  rw [List.drop_take, List.drop_drop] at h1
  rw [← h1, List.take_take]
  congr 1
  rw [← h1] at hk
  simp only [List.length_take] at hk
  omega

theorem slice_slice_drop {mem : Bytes} {o n : Nat} {b : UInt8} {rem : Bytes} (h : slice mem o n = b :: rem) (k : Nat) :
    slice mem (o + 1 + k) (n - 1 - k) = rem.drop k := by
  unfold slice at h ⊢
  have h1 : ((mem.drop o).take n).drop 1 = rem := by rw [h]; rfl
  rw [List.drop_take, List.drop_drop] at h1
  rw [← h1, List.drop_take, List.drop_drop]

/-- The review of a message, in terms of its bytes alone. -/
def reviewOf (cr : Crypto) (digest : Bytes) (msg : Bytes) : Viewer :=
  match msg with
  | 0x03 :: rem => ⟨numItemsOps (rem.drop 32), signOpItem cr (rem.take 32) (rem.drop 32)⟩
  | _ => ⟨.ok 1, signMichelsonItem digest⟩

/-- The review of the first operation of a message, as the baking commands show it. -/
def firstOpReview (cr : Crypto) (branch : Bytes) (op : Op) : Viewer :=
  ⟨.ok (UInt8.ofNat (op.uiItems + 1)), fun n =>
    if n = 0 then do return ⟨ascii "Operation", ← branchText cr branch⟩ else op.item cr (n - 1).toNat⟩

theorem Op.reread_uiItems (op : Op) (b : Bytes) : (op.reread b).uiItems = op.uiItems := by cases op <;> rfl

/-- The review of a baking command shows the first operation as it is in memory now. -/
theorem View.viewer_first (cr : Crypto) (mem : SwapBuf) (h : Bool) (d : Bytes) (r : MemRef) (op : Op) (m : Bytes) :
    (View.bakingSign h d r op m).viewer cr mem = firstOpReview cr ((MemRef.mk r.inFlash r.off 32).get mem)
      (op.reread ((MemRef.mk r.inFlash (r.off + 32) (r.len - 32)).get mem)) := by
  simp only [View.viewer, firstOpReview, Op.reread_uiItems]

theorem operationNew_ok {rem branch ops : Bytes} (h : operationNew rem = .ok (branch, ops)) :
    32 ≤ rem.length ∧ branch = rem.take 32 ∧ ops = rem.drop 32 := by
  unfold operationNew at h
  obtain ⟨⟨r, b⟩, h1, h2⟩ := ebind_ok.mp h
  simp only [ePure, Except.ok.injEq, Prod.mk.injEq] at h2
  obtain ⟨rfl, rfl⟩ := h2
  unfold nTake at h1
  split at h1
  · rename_i hl
    simp only [Except.ok.injEq, Prod.mk.injEq] at h1
    exact ⟨hl, h1.2.symm, h1.1.symm⟩
  · cases h1

/-- Two buffers with the same memories. -/
def SameMemory (b b' : SwapBuf) : Prop := b'.ram = b.ram ∧ b'.flash = b.flash

theorem SameMemory.get {b b' : SwapBuf} (h : SameMemory b b') (r : MemRef) : r.get b' = r.get b := by
  unfold MemRef.get
  rw [h.1, h.2]

theorem SameMemory.drop (acc : Accessor) (u : Upl) : SameMemory u.buf (u.drop acc).buf := by
  unfold Upl.drop
  split <;> exact ⟨rfl, rfl⟩

/-- A signing review shows the items of its message, as long as the upload memory is left alone. -/
theorem Opens.viewer_sign {env : Env} {s : Dev} {p1 p2 : UInt8} {payload : Option Bytes} {c : Cmd} {h : Bool}
    {d m : Bytes} {r : Option MemRef} {p : Option (Path × Curve)} {u : Upl}
    (ho : Opens env s p1 p2 payload c (.sign h d r m) p u) {b : SwapBuf} (hb : SameMemory u.buf b) (cr : Crypto) :
    (View.sign h d r m).viewer cr b = reviewOf cr d m := by
  cases ho with
  | operation hu hc hp hd ho =>
    rename_i q2 first rem ref k ops
    obtain ⟨hl, -, -⟩ := operationNew_ok (branch := ops.1) (ops := ops.2) ho
    obtain ⟨h1, h2⟩ := hu.ref_get
    rw [← hb.get] at h1
    unfold MemRef.get at h1
    simp only [View.viewer, reviewOf, MemRef.get]
    rw [slice_slice_take h1 32 hl, slice_slice_drop h1 32]
  | michelson hu hc hp hd => rfl

/-- The review of a baking command shows the items of the first operation of its message. -/
theorem Opens.viewer_baking {env : Env} {s : Dev} {p1 p2 : UInt8} {payload : Option Bytes} {c : Cmd} {h : Bool}
    {d m : Bytes} {r : MemRef} {op : Op} {p : Option (Path × Curve)} {u : Upl}
    (ho : Opens env s p1 p2 payload c (.bakingSign h d r op m) p u) :
    ∃ rem rest, m = 0x03 :: rem ∧ 32 ≤ rem.length ∧ parseNext (rem.drop 32) = .ok (some (rest, op)) ∧
      ∀ cr b, SameMemory u.buf b → (View.bakingSign h d r op m).viewer cr b = firstOpReview cr (rem.take 32) op := by
  cases ho with
  | baking hu hc hp hk hd ho hn hop =>
    rename_i q2 first rem ref k branch ops rest
    obtain ⟨hl, rfl, rfl⟩ := operationNew_ok ho
    refine ⟨rem, rest, rfl, hl, hn, fun cr b hb => ?_⟩
    obtain ⟨h1, h2⟩ := hu.ref_get
    rw [← hb.get] at h1
    unfold MemRef.get at h1
    rw [View.viewer_first]
    simp only [MemRef.get]
    rw [slice_slice_take h1 32 hl, slice_slice_drop h1 32, Op.reread_parsed hn hop]

/-! ### The review on the screen -/

/-- The screen of a device on which a review is pending, with no jump of the expert mode, after one more calm
event: the buttons navigate, or there is an error screen, or the app is gone. -/
inductive Navigates (v : Viewer) (ev : Event) (z z' : Zui) : Prop where
  | same (h : z' = z) (hb : ev = .both → z.chosen = .nothing) (hn : ev ≠ .left ∧ ev ≠ .right)
  | left (he : ev = .left) (h : z.goLeft (some v) = .shown z')
  | right (he : ev = .right) (h : z.goRight (some v) = .shown z')

theorem Dev.redraw_shown {u : Upd} {s : Dev} {v : View} (hv : (s.redraw u).1.view = some v) :
    u = .shown (s.redraw u).1.zui ∨ (s.redraw u).1.zui.screen = .error ∨ (s.redraw u).1.running = false := by
  unfold Dev.redraw at hv ⊢
  cases u with
  | shown z => exact .inl rfl
  | failed z => exact .inr (.inl rfl)
  | rejected z =>
    exfalso
    have hr := Dev.reject_view { s with zui := z }
    change ({ s with zui := z } : Dev).reject.1.view = some v at hv
    rw [hr] at hv
    cases hv
  | panic => exact .inr (.inr rfl)
  | hang => exact .inr (.inr rfl)

theorem Dev.step_navigates {cfg : Config} {env : Env} {ev : Event} {s : Dev} {v : View} {w : Viewer}
    (hb : ev.packet cfg.build = none) (hop : ∀ w, ¬ OpensAt cfg env s ev w (s.step cfg env ev).1)
    (hrun : s.running = true) (hscr : ∃ k l1 l2, s.zui.screen = .review k l1 l2)
    (hw : s.viewer env = some w) (hx : s.zui.jumps = false) (hv : (s.step cfg env ev).1.view = some v) :
    Navigates w ev s.zui (s.step cfg env ev).1.zui ∨ (s.step cfg env ev).1.zui.screen = .error ∨
      (s.step cfg env ev).1.running = false := by
  obtain ⟨k, l1, l2, hscr⟩ := hscr
  cases ev with
  | apdu buf rx => exact .inl (.same (Dev.apdu_calm hb hop hv).2 (fun h => by cases h) ⟨by simp, by simp⟩)
  | relaunch => cases hv
  | left =>
    simp only [Dev.step, hrun, if_true, hscr, hw] at hv ⊢
    rcases Dev.redraw_shown hv with h | h | h
    · exact .inl (.left rfl h)
    · exact .inr (.inl h)
    · exact .inr (.inr h)
  | right =>
    simp only [Dev.step, hrun, if_true, hscr, hw] at hv ⊢
    rcases Dev.redraw_shown hv with h | h | h
    · exact .inl (.right rfl h)
    · exact .inr (.inl h)
    · exact .inr (.inr h)
  | both =>
    simp only [Dev.step, hrun, if_true, hscr] at hv ⊢
    obtain ⟨ha, hk⟩ := Dev.pressBoth_kept hv
    left
    refine .same ?_ (fun _ => ha) ⟨by simp, by simp⟩
    simp only [Dev.pressBoth, ha, hx, Bool.false_eq_true, and_false, if_false]
  | expert =>
    left
    refine .same ?_ (fun h => by cases h) ⟨by simp, by simp⟩
    simp only [Dev.step, hscr, reduceCtorEq, and_false, if_false]

end Tezos
