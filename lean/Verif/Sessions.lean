import Verif.Histories
import Verif.Props.Upload
/-
Uploads along device histories: which message a signing command acts on, in terms of the packets the host sent, and
where that message stays in memory.
-/
set_option linter.unusedSimpArgs false
namespace Tezos
open Spec (Session Packet feed acks role uploadCapacity)

/-! ### One packet -/

/-- A write that does not fit fails, and says so. -/
theorem SwapBuf.write_full {b : SwapBuf} (hb : b.WF) {bs : Bytes}
    (hfull : b.flash.length < b.cnt + bs.length) : (b.write .done .done bs).2 = .err := by
  have hsz := hb.sizes
  unfold SwapBuf.write
  split
  · unfold SwapBuf.writeFlash
    rw [if_pos (by omega)]
  · rw [if_pos (by omega), if_neg (by omega)]
    simp only [SwapBuf.writeFlash]
    have : (overwrite b.flash 0 b.ram).length = b.flash.length := overwrite_length (by omega)
    rw [if_pos (by simp only [this]; omega)]

theorem slice_of_take {mem : Bytes} {n : Nat} {d0 : UInt8} {first data : Bytes}
    (h : mem.take n = d0 :: (first ++ data)) (hn : n = 1 + first.length + data.length) :
    slice mem (1 + first.length) data.length = data := by
  unfold slice
  have : (mem.take n).drop (1 + first.length) = data := by
    rw [h, Nat.add_comm, List.drop_succ_cons, List.drop_left]
  rw [List.drop_take] at this
  rw [show n - (1 + first.length) = data.length by omega] at this
  exact this

/-- What a packet does on a device whose flash works. -/
structure Fed (u : Upl) (s : Option (Session Accessor)) (k : Packet Accessor) (r : Upl × UplRes) : Prop where
  some : ∀ q2 first data, (feed s k).2 = some (q2, first, data) → ∃ ref, r.2 = .complete q2 first data ref ∧
    ref.get r.1.buf = data ∧ UplInv (r.1.drop k.family) (feed s k).1 ∧ (r.1.drop k.family).buf = r.1.buf.reset
  none : (feed s k).2 = none →
    (if acks s k then r.2 = .more else ∃ e, r.2 = .err e ∧ e ≠ .success) ∧ UplInv r.1 (feed s k).1

theorem Upl.upload_fed {u : Upl} {s : Option (Session Accessor)} (h : UplInv u s) (k : Packet Accessor)
    (hp : k.payload.length ≤ 255) : Fed u s k (u.upload .done .done k.family k.p1 k.p2 (some k.payload)) := by
  have hr := tryEither_role k.p1
  obtain ⟨hwf, hram, hflash, hs⟩ := h
  cases hrole : role k.p1 with
  | none =>
    rw [hrole] at hr
    simp only at hr
    have hf : feed s k = (s, none) := by unfold feed; rw [hrole]
    simp only [Upl.upload, hr]
    refine ⟨by rw [hf]; simp, fun _ => ⟨by rw [if_neg (by simp_all [acks])]; exact ⟨_, rfl, by decide⟩, ?_⟩⟩
    rw [hf]
    exact ⟨hwf, hram, hflash, hs⟩
  | some ro =>
    rw [hrole] at hr
    cases ro with
    | opening =>
      obtain ⟨t, ht, hi⟩ := hr
      have hf : feed s k = (some ⟨k.family, k.p2, k.payload, []⟩, none) := by unfold feed; rw [hrole]
      have hcap : (1 : Nat) ≤ uploadCapacity := by decide
      simp only [Upl.upload, ht, hi, if_true]
      have w1 := SwapBuf.write_spec hwf.reset .done .done [k.p2]
      have o1 : (u.buf.reset.write .done .done [k.p2]).2 = .ok :=
        SwapBuf.write_done hwf.reset (by simp only [SwapBuf.reset, List.length_singleton, hflash]; omega)
      generalize hb1 : (u.buf.reset.write .done .done [k.p2]) = x1 at w1 o1
      obtain ⟨b1, r1⟩ := x1
      simp only at w1 o1 ⊢
      subst o1
      have l1 : b1.ram.length = 0xFF ∧ b1.flash.length = uploadCapacity :=
        ⟨by rw [w1.ramLen]; exact hram, by rw [w1.flashLen]; exact hflash⟩
      simp only [UplRes.ofWrite]
      have w2 := SwapBuf.write_spec w1.wf .done .done k.payload
      have c1 : b1.cnt = 1 := by
        have e1 := congrArg List.length (w1.ok rfl).1
        rw [w1.wf.readExact_length] at e1
        simpa using e1
      have o2 : (b1.write .done .done k.payload).2 = .ok :=
        SwapBuf.write_done w1.wf (by rw [c1, l1.2]; unfold uploadCapacity; omega)
      generalize hb2 : (b1.write .done .done k.payload) = x2 at w2 o2
      obtain ⟨b2, r2⟩ := x2
      simp only at w2 o2 ⊢
      subst o2
      refine ⟨by rw [hf]; simp, fun _ => ⟨by rw [if_pos (by simp_all [acks])], ?_⟩⟩
      rw [hf]
      refine ⟨w2.wf, by rw [w2.ramLen]; exact l1.1, by rw [w2.flashLen]; exact l1.2, by simp [lockLock], ?_, rfl⟩
      rw [(w2.ok rfl).1, (w1.ok rfl).1]
      simp
    | middle =>
      obtain ⟨t, ht, hi, hn⟩ := hr
      simp only [Upl.upload, ht, hi, hn, if_true, Bool.false_eq_true, if_false]
      cases s with
      | none =>
        have hf : feed none k = (none, none) := by unfold feed; rw [hrole]
        simp only at hs
        simp only [lockAcquire, hs]
        refine ⟨by rw [hf]; simp, fun _ => ⟨by rw [if_neg (by simp_all [acks])]; exact ⟨_, rfl, by decide⟩, ?_⟩⟩
        rw [hf]
        exact ⟨hwf, hram, hflash, hs⟩
      | some s =>
        obtain ⟨hl, hre, hil⟩ := hs
        have hcnt : u.buf.cnt = 1 + s.first.length + s.rest.length := by
          rw [← hwf.readExact_length, hre]; simp; omega
        by_cases hfam : s.family = k.family
        · have hacq : lockAcquire u.lock k.family = .ok () := by simp [lockAcquire, hl, hfam]
          rw [hacq]
          simp only
          have w := SwapBuf.write_spec hwf .done .done k.payload
          by_cases hfit : 1 + s.first.length + s.rest.length + k.payload.length ≤ uploadCapacity
          · have hf : feed (some s) k = (some { s with rest := s.rest ++ k.payload }, none) := by
              simp only [feed, hrole, hfam, hfit, and_self, if_true]
            have o : (u.buf.write .done .done k.payload).2 = .ok :=
              SwapBuf.write_done hwf (by rw [hcnt, hflash]; omega)
            generalize hb : (u.buf.write .done .done k.payload) = x at w o
            obtain ⟨b, r⟩ := x
            simp only at w o ⊢
            subst o
            simp only [UplRes.ofWrite]
            refine ⟨by rw [hf]; simp, fun _ => ⟨by rw [if_pos (by simp_all [acks])], ?_⟩⟩
            rw [hf]
            refine ⟨w.wf, by rw [w.ramLen]; exact hram, by rw [w.flashLen]; exact hflash, hl, ?_, hil⟩
            rw [(w.ok rfl).1, hre]
            simp
          · have hf : feed (some s) k = (some s, none) := by
              simp only [feed, hrole, hfam, hfit, and_false, if_false]
            have o : (u.buf.write .done .done k.payload).2 = .err := SwapBuf.write_full hwf (by rw [hcnt, hflash]; omega)
            generalize hb : (u.buf.write .done .done k.payload) = x at w o
            obtain ⟨b, r⟩ := x
            simp only at w o ⊢
            subst o
            simp only [UplRes.ofWrite]
            refine ⟨by rw [hf]; simp, fun _ => ⟨by rw [if_neg (by simp_all [acks])]; exact ⟨_, rfl, by decide⟩, ?_⟩⟩
            rw [hf]
            exact ⟨w.wf, by rw [w.ramLen]; exact hram, by rw [w.flashLen]; exact hflash, hl,
              by rw [w.notOk (by simp), hre], hil⟩
        · have hacq : lockAcquire u.lock k.family = .error .busy := by simp [lockAcquire, hl, hfam]
          have hf : feed (some s) k = (some s, none) := by
            simp only [feed, hrole, hfam, false_and, if_false]
          rw [hacq]
          refine ⟨by rw [hf]; simp, fun _ => ⟨by rw [if_neg (by simp_all [acks])]; exact ⟨_, rfl, by decide⟩, ?_⟩⟩
          rw [hf]
          exact ⟨hwf, hram, hflash, hl, hre, hil⟩
    | closing =>
      obtain ⟨t, ht, hi, hn, hla⟩ := hr
      simp only [Upl.upload, ht, hi, hn, hla, if_true, Bool.false_eq_true, if_false]
      cases s with
      | none =>
        have hf : feed none k = (none, none) := by unfold feed; rw [hrole]
        simp only at hs
        simp only [lockAcquire, hs]
        refine ⟨by rw [hf]; simp, fun _ => ⟨by rw [if_neg (by simp_all [acks])]; exact ⟨_, rfl, by decide⟩, ?_⟩⟩
        rw [hf]
        exact ⟨hwf, hram, hflash, hs⟩
      | some s =>
        obtain ⟨hl, hre, hil⟩ := hs
        have hcnt : u.buf.cnt = 1 + s.first.length + s.rest.length := by
          rw [← hwf.readExact_length, hre]; simp; omega
        by_cases hfam : s.family = k.family
        · have hacq : lockAcquire u.lock k.family = .ok () := by simp [lockAcquire, hl, hfam]
          rw [hacq]
          simp only
          have w := SwapBuf.write_spec hwf .done .done k.payload
          by_cases hfit : 1 + s.first.length + s.rest.length + k.payload.length ≤ uploadCapacity
          · have hf : feed (some s) k = (none, some (s.p2, s.first, s.rest ++ k.payload)) := by
              simp only [feed, hrole, hfam, hfit, and_self, if_true]
            have o : (u.buf.write .done .done k.payload).2 = .ok :=
              SwapBuf.write_done hwf (by rw [hcnt, hflash]; omega)
            generalize hb : (u.buf.write .done .done k.payload) = x at w o
            obtain ⟨b, r⟩ := x
            simp only at w o ⊢
            subst o
            have hre2 : b.readExact = s.p2 :: (s.first ++ (s.rest ++ k.payload)) := by
              rw [(w.ok rfl).1, hre]; simp
            simp only [UplRes.ofWrite, hre2, hil]
            rw [if_pos (by simp)]
            have hdrop : (({ lock := u.lock, buf := b, initLen := s.first.length } : Upl).drop k.family)
                = { lock := none, buf := b.reset, initLen := s.first.length } := by
              simp [Upl.drop, lockAcquire, lockRelease, hl, hfam]
            refine ⟨?_, by rw [hf]; simp⟩
            intro q2 first data heq
            rw [hf] at heq
            simp only [Option.some.injEq, Prod.mk.injEq] at heq
            obtain ⟨rfl, rfl, rfl⟩ := heq
            refine ⟨_, by simp; rfl, ?_, ?_, ?_⟩
            · have hmem : (if b.inFlash = true then b.flash else b.ram).take b.cnt =
                  s.p2 :: (s.first ++ (s.rest ++ k.payload)) := by
                rw [← hre2]
                unfold SwapBuf.readExact
                split <;> rfl
              have hc : b.cnt = 1 + s.first.length + (s.rest ++ k.payload).length := by
                rw [← w.wf.readExact_length, hre2]; simp; omega
              simp only [MemRef.get]
              rw [← List.length_append]
              exact slice_of_take hmem hc
            · rw [hdrop, hf]
              exact ⟨w.wf.reset, by rw [← hram, ← w.ramLen]; rfl, by rw [← hflash, ← w.flashLen]; rfl, rfl⟩
            · rw [hdrop]
          · have hf : feed (some s) k = (some s, none) := by
              simp only [feed, hrole, hfam, hfit, and_false, if_false]
            have o : (u.buf.write .done .done k.payload).2 = .err := SwapBuf.write_full hwf (by rw [hcnt, hflash]; omega)
            generalize hb : (u.buf.write .done .done k.payload) = x at w o
            obtain ⟨b, r⟩ := x
            simp only at w o ⊢
            subst o
            simp only [UplRes.ofWrite]
            refine ⟨by rw [hf]; simp, fun _ => ⟨by rw [if_neg (by simp_all [acks])]; exact ⟨_, rfl, by decide⟩, ?_⟩⟩
            rw [hf]
            exact ⟨w.wf, by rw [w.ramLen]; exact hram, by rw [w.flashLen]; exact hflash, hl,
              by rw [w.notOk (by simp), hre], hil⟩
        · have hacq : lockAcquire u.lock k.family = .error .busy := by simp [lockAcquire, hl, hfam]
          have hf : feed (some s) k = (some s, none) := by
            simp only [feed, hrole, hfam, false_and, if_false]
          rw [hacq]
          refine ⟨by rw [hf]; simp, fun _ => ⟨by rw [if_neg (by simp_all [acks])]; exact ⟨_, rfl, by decide⟩, ?_⟩⟩
          rw [hf]
          exact ⟨hwf, hram, hflash, hl, hre, hil⟩

/-! ### Commands and the upload buffer -/

theorem Dev.resetHwm_upl (env : Env) (l : UInt32) (s : Dev) : (s.resetHwm env l).st.upl = s.upl := by
  cases s.resetHwm_cases env l with
  | main _ hst _ => rw [hst]
  | test _ _ hst _ => rw [hst]
  | chain _ _ hst _ => rw [hst]
  | init _ _ _ hst _ => rw [hst]

theorem Dev.autoSign_upl (env : Env) (h : Bool) (digest m : Bytes) (dec : WaterMark → Except HErr WaterMark) (s : Dev)
    (hdec : ∀ hw e, dec hw = .error (.err e) → e ≠ .success) : (s.autoSign env h digest m dec).st.upl = s.upl := by
  rcases s.autoSign_cases env h digest m dec hdec with hf | ⟨b, w, _, _, hf | ⟨_, k, sig, _, _, he⟩⟩
  · rw [hf.1]
  · rw [hf.1]; rfl
  · rw [he]; rfl

theorem Dev.startSign_upl (env : Env) (h : Bool) (p2 : UInt8) (first data : Bytes) (ref : MemRef) (s : Dev) :
    (s.startSign env h p2 first data ref).st.upl = s.upl := by
  rcases s.startSign_cases env h p2 first data ref with
    hf | ⟨k, hc, hp, hf | ⟨digest, hd, ⟨rem, ops, hrem, ho, hshow⟩ | ⟨rem, hrem, hshow⟩⟩⟩
  · rw [hf.1]
  · rw [hf.1]
  · rw [hshow, Dev.show_upl]
  · rw [hshow, Dev.show_upl]

theorem Dev.bakerSign_upl (env : Env) (h : Bool) (p2 : UInt8) (first data : Bytes) (ref : MemRef) (s : Dev) :
    (s.bakerSign env h p2 first data ref).st.upl = s.upl := by
  rcases s.bakerSign_cases env h p2 first data ref with hf | ⟨k, digest, hc, hp, hk, hd, ⟨hm, hb⟩ | ⟨rem, hrem, hb⟩⟩
  · rw [hf.1]
  · rw [hb, Dev.autoSign_upl _ _ _ _ _ _ (fun _ _ => specDecide_error)]
  · rw [hb]
    rcases s.handleDelegation_cases env h digest rem data _ with hf | ⟨branch, ops, rest, op, ho, hn, hop, hshow⟩
    · rw [hf.1]
    · rw [hshow, Dev.show_upl]

theorem View.accept_upl (env : Env) (v : View) (s : Dev) : (v.accept env s).st.upl = s.upl := by
  cases v with
  | sign h d p m =>
    cases View.accept_sign env h d p m s with
    | bad hst _ => rw [hst]
    | done _ _ _ _ _ hr => rw [hr]
  | bakingSign h d b o m =>
    simp only [View.accept]
    rcases s.bakingSign_cases env h d m with ⟨h, _⟩ | ⟨k, sig, _, _, h⟩ <;> rw [h]
  | addr a k w => rw [(View.accept_addr env a k w s).1]
  | query k a w => rfl
  | authorize k a =>
    cases View.accept_authorize env k a s with
    | none hst _ => rw [hst]
    | key _ hst _ => rw [hst]
    | done _ hst _ _ => rw [hst]
  | deauthorize a =>
    cases View.accept_deauthorize env a s with
    | key _ hst _ => rw [hst]
    | done _ hst _ _ => rw [hst]
  | setup k a m t ch =>
    cases View.accept_setup env k a m t ch s with
    | none hst _ => rw [hst]
    | key _ hst _ => rw [hst]
    | main _ _ hst _ => rw [hst]
    | test _ _ _ hst _ => rw [hst]
    | chain _ _ _ hst _ => rw [hst]

/-- The accessor a command uploads with. -/
def Cmd.accessor : Cmd → Option Accessor
  | .bakerSign _ => some .baking
  | .sign _ => some .sign
  | _ => none

/-- The upload state after a packet, freed if it was complete. -/
def Upl.released (acc : Accessor) (r : Upl × UplRes) : Upl :=
  match r.2 with
  | .complete .. => r.1.drop acc
  | _ => r.1

theorem Dev.cmdUpload_upl {env : Env} {acc : Accessor} {p1 p2 : UInt8} {payload : Option Bytes}
    {finish : UInt8 → Bytes → Bytes → MemRef → Dev → Res} {s : Dev}
    (hf : ∀ q2 first data ref s, (finish q2 first data ref s).st.upl = s.upl) :
    (s.cmdUpload env acc p1 p2 payload finish).st.upl =
      Upl.released acc (s.upl.upload env.copyF env.appendF acc p1 p2 payload) := by
  unfold Dev.cmdUpload Upl.released
  cases s.upl.upload env.copyF env.appendF acc p1 p2 payload with
  | mk u r => cases r <;> first | rfl | simp only [hf]

/-- Commands that do not upload leave the buffer alone. -/
theorem Dev.exec_upl (cfg : Config) (env : Env) (c : Cmd) (p1 p2 : UInt8) (payload : Option Bytes) (s : Dev) :
    (s.exec cfg env c p1 p2 payload).st.upl = match c.accessor with
      | none => s.upl
      | some acc => Upl.released acc (s.upl.upload env.copyF env.appendF acc p1 p2 payload) := by
  cases c with
  | bakerSign h => exact Dev.cmdUpload_upl (fun q2 first data ref s => s.bakerSign_upl env h q2 first data ref)
  | sign h => exact Dev.cmdUpload_upl (fun q2 first data ref s => s.startSign_upl env h q2 first data ref)
  | reset =>
    simp only [Dev.exec, Cmd.accessor]
    rcases s.cmdReset_cases env payload with h | ⟨p, hp, hl, h⟩
    · rw [h.1]
    · rw [h, Dev.resetHwm_upl]
  | queryMain => simp only [Dev.exec, Cmd.accessor, s.cmdQueryMain_still.1]
  | queryAll => simp only [Dev.exec, Cmd.accessor, s.cmdQueryAll_still.1]
  | authorize =>
    simp only [Dev.exec, Cmd.accessor]
    rcases s.cmdAuthorize_cases env p1 p2 payload with h | ⟨k, p, a, h1, hc, hp, hr, ha, h⟩
    · rw [h.1]
    · rw [h, Dev.show_upl]
  | deauthorize =>
    simp only [Dev.exec, Cmd.accessor]
    rcases s.cmdDeauthorize_cases env p1 with h | ⟨k, a, h1, hk, ha, h⟩
    · rw [h.1]
    · rw [h, Dev.show_upl]
  | queryAuth wc =>
    simp only [Dev.exec, Cmd.accessor]
    rcases s.cmdQueryAuth_cases env wc p1 with h | ⟨k, a, hk, ha, ⟨h1, h⟩ | ⟨_, h⟩⟩
    · rw [h.1]
    · rw [h, Dev.show_upl]
    · rw [h]; rfl
  | setup =>
    simp only [Dev.exec, Cmd.accessor]
    rcases s.cmdSetup_cases env p2 payload with h | ⟨k, p, a, hc, hp, hl, hn, hr, ha, h⟩
    · rw [h.1]
    · rw [h, Dev.show_upl]
  | hmac => simp only [Dev.exec, Cmd.accessor, (s.cmdHmac_still env p2 payload).1]
  | legacyVersion => rfl
  | git => rfl
  | version => rfl
  | getKey =>
    simp only [Dev.exec, Cmd.accessor]
    rcases s.cmdGetKey_cases env p2 payload with h | ⟨k, p, key, _, _, _, _, h⟩
    · rw [h.1]
    · rw [h]; rfl
  | promptAddr =>
    simp only [Dev.exec, Cmd.accessor]
    rcases s.cmdAddr_cases env true p2 payload with h | ⟨k, p, key, a, hc, hp, hr, hk, ha, ⟨_, h⟩ | ⟨_, t, _, h⟩⟩
    · rw [h.1]
    · rw [h, Dev.show_upl]
    · rw [h]; rfl
  | getAddr =>
    simp only [Dev.exec, Cmd.accessor]
    rcases s.cmdAddr_cases env (p1 ≥ 1) p2 payload with
      h | ⟨k, p, key, a, hc, hp, hr, hk, ha, ⟨_, h⟩ | ⟨_, t, _, h⟩⟩
    · rw [h.1]
    · rw [h, Dev.show_upl]
    · rw [h]; rfl

/-! ### Packets in events -/

/-- The command family an instruction code uploads for, from the list of instruction codes. -/
def familyOf (b : Build) (ins : UInt8) : Option Accessor :=
  match b with
  | .baking => if ins ∈ [0x04, 0x0F, 0xAF] then some .baking else if ins = 0x12 then some .sign else none
  | .wallet => if ins ∈ [0x04, 0x05, 0x0F, 0x12] then some .sign else none

/-- The packet of a signing command that an event carries. -/
def Event.packet (b : Build) : Event → Option (Packet Accessor)
  | .apdu buf rx =>
    if 5 ≤ rx ∧ rx ≤ buf.length ∧ buf[0]? = some 0x80 then
      (buf[1]?.bind (familyOf b)).map fun f =>
        ⟨f, buf.getD 2 0, buf.getD 3 0, slice buf 5 (buf.getD 4 0).toNat⟩
    else none
  | _ => none

/-- The exchange buffer has 260 bytes. -/
def Event.Full : Event → Prop
  | .apdu buf _ => buf.length = 260
  | _ => True

instance (ev : Event) : Decidable ev.Full := by cases ev <;> unfold Event.Full <;> infer_instance

/-- The upload session after an event, as the host sees it: signing packets change it while the app runs, starting the
app ends it. -/
def sessionStep (cfg : Config) (s : Option (Session Accessor)) (m : Moment) : Option (Session Accessor) :=
  if m.ev = .relaunch then none
  else if m.st.running then
    match m.ev.packet cfg.build with
    | some k => (feed s k).1
    | none => s
  else s

/-- The open upload session after a history. -/
def sessionIn (cfg : Config) (past : List Moment) : Option (Session Accessor) := past.foldl (sessionStep cfg) none

/-! ### The buffer along a history -/

theorem familyOf_eq (b : Build) (ins : UInt8) : familyOf b ins = (command b ins).bind Cmd.accessor := by
  revert ins
  apply forall_u8
  cases b <;> decide +kernel

theorem Res.deliver_upl (r : Res) : r.deliver.1.upl = r.st.upl := by
  unfold Res.deliver
  split <;> rfl

theorem Dev.reject_upl (s : Dev) : s.reject.1.upl = s.upl := by
  unfold Dev.reject
  simp only
  split
  · rfl
  · exact View.reject_upl _ _

theorem Dev.acceptError_upl (s : Dev) : s.acceptError.1.upl = s.upl := by
  unfold Dev.acceptError
  simp only
  split <;> rfl

theorem Dev.onError_upl (c : Bool) (f : XError → XError) (s : Dev) : (s.onError c f).1.upl = s.upl := by
  unfold Dev.onError
  split
  · exact s.acceptError_upl
  · rfl

theorem Dev.approve_upl (env : Env) (s : Dev) : (s.approve env).1.upl = s.upl := by
  unfold Dev.approve
  simp only
  split
  · rfl
  · simp only [Res.deliver_upl, View.accept_upl]

theorem Dev.redraw_upl (u : Upd) (s : Dev) : (s.redraw u).1.upl = s.upl := by
  unfold Dev.redraw
  cases u with
  | rejected z => exact Dev.reject_upl _
  | _ => rfl

theorem Dev.pressBoth_upl (env : Env) (s : Dev) : (s.pressBoth env).1.upl = s.upl := by
  unfold Dev.pressBoth
  simp only
  split <;> split <;> simp only [Dev.redraw_upl, Dev.approve_upl, Dev.reject_upl]

/-- A buffer of the right size holds the declared payload. -/
theorem apduPayload_full {buf : Bytes} (h : buf.length = 260) :
    apduPayload buf = some (slice buf 5 (buf.getD 4 0).toNat) := by
  unfold apduPayload
  have := (buf.getD 4 0).toNat_lt
  simp only
  rw [if_pos (by omega)]

/-- An APDU that runs a signing command carries a packet. -/
theorem Received.packet {cfg : Config} {s : Dev} {ev : Event} {buf : Bytes} {rx : Nat} {c : Cmd}
    (h : Received cfg s ev buf rx c) : ev.packet cfg.build = c.accessor.map fun f =>
      ⟨f, buf.getD 2 0, buf.getD 3 0, slice buf 5 (buf.getD 4 0).toNat⟩ := by
  obtain ⟨rfl, hrun, hlen, hcla, ins, hins, hcmd⟩ := h
  simp only [Event.packet]
  rw [if_pos ⟨hlen.1, hlen.2, hcla⟩, hins]
  simp only [Option.bind_some, familyOf_eq, hcmd]

theorem Event.packet_received {cfg : Config} {s : Dev} {ev : Event} {k : Packet Accessor} (hrun : s.running = true)
    (h : ev.packet cfg.build = some k) : ∃ buf rx c, Received cfg s ev buf rx c ∧ c.accessor = some k.family ∧
      k.p1 = buf.getD 2 0 ∧ k.p2 = buf.getD 3 0 ∧ k.payload = slice buf 5 (buf.getD 4 0).toNat := by
  cases ev with
  | apdu buf rx =>
    simp only [Event.packet] at h
    split at h
    · rename_i hc
      cases hi : buf[1]? with
      | none => rw [hi] at h; cases h
      | some ins =>
        rw [hi] at h
        simp only [Option.bind_some, familyOf_eq] at h
        cases hcmd : command cfg.build ins with
        | none => rw [hcmd] at h; cases h
        | some c =>
          rw [hcmd] at h
          simp only [Option.bind_some] at h
          cases ha : c.accessor with
          | none => rw [ha] at h; cases h
          | some f =>
            rw [ha] at h
            cases h
            exact ⟨buf, rx, c, ⟨rfl, hrun, ⟨hc.1, hc.2.1⟩, hc.2.2, ins, hi, hcmd⟩, ha, rfl, rfl, rfl⟩
    · cases h
  | _ => cases h

theorem Event.packet_length {b : Build} {ev : Event} {k : Packet Accessor} (h : ev.packet b = some k) :
    k.payload.length ≤ 255 := by
  cases ev with
  | apdu buf rx =>
    simp only [Event.packet] at h
    split at h
    · simp only [Option.map_eq_some_iff] at h
      obtain ⟨f, _, rfl⟩ := h
      have := slice_length_le buf 5 (buf.getD 4 0).toNat
      have := (buf.getD 4 0).toNat_lt
      simp only at *
      omega
    · cases h
  | _ => cases h

/-- What an event does to the upload buffer. -/
theorem Dev.step_upl (cfg : Config) (env : Env) {ev : Event} (s : Dev) (hfull : ev.Full) :
    (s.step cfg env ev).1.upl =
      if ev = .relaunch then Upl.init s.upl.buf.flash
      else if s.running then
        match ev.packet cfg.build with
        | some k => Upl.released k.family (s.upl.upload env.copyF env.appendF k.family k.p1 k.p2 (some k.payload))
        | none => s.upl
      else s.upl := by
  cases ev with
  | relaunch => rfl
  | apdu buf rx =>
    rw [if_neg (by simp)]
    by_cases hrun : s.running = true
    · rw [if_pos hrun]
      cases hp : (Event.apdu buf rx).packet cfg.build with
      | some k =>
        obtain ⟨buf', rx', c, hrec, hacc, h1, h2, h3⟩ := Event.packet_received hrun hp
        have := hrec.ev
        cases this
        rw [hrec.step, Res.deliver_upl, Dev.exec_upl]
        simp only [hacc, apduPayload_full hfull, h1, h2, h3]
      | none =>
        rcases s.apdu_cases cfg env buf rx with ⟨h, _⟩ | ⟨c, hrec, h⟩
        · rw [h]
        · rw [h, Res.deliver_upl, Dev.exec_upl]
          rw [hrec.packet] at hp
          simp only [Option.map_eq_none_iff] at hp
          simp only [hp]
    · rw [if_neg hrun]
      simp only [Dev.step, hrun, if_neg, Bool.false_eq_true, if_false]
  | left =>
    simp only [Dev.step, Event.packet]
    split
    · split <;> simp [Dev.redraw_upl, Dev.onError_upl]
    · simp
  | right =>
    simp only [Dev.step, Event.packet]
    split
    · split <;> simp [Dev.redraw_upl, Dev.onError_upl]
    · simp
  | both =>
    simp only [Dev.step, Event.packet]
    split
    · split <;> simp [Dev.pressBoth_upl, Dev.onError_upl]
    · simp
  | expert =>
    simp only [Dev.step, Event.packet]
    split <;> simp

/-- The flash area of the upload buffer works, and the exchange buffer has its size. -/
structure Good (env : Env) (ev : Event) : Prop where
  copy : env.copyF = .done
  append : env.appendF = .done
  full : ev.Full

instance (env : Env) (ev : Event) : Decidable (Good env ev) :=
  decidable_of_iff (env.copyF = .done ∧ env.appendF = .done ∧ ev.Full) ⟨fun h => ⟨h.1, h.2.1, h.2.2⟩,
    fun h => ⟨h.1, h.2, h.3⟩⟩

theorem Upl.released_fed {u : Upl} {s : Option (Session Accessor)} {k : Packet Accessor} {r : Upl × UplRes}
    (h : Fed u s k r) : UplInv (Upl.released k.family r) (feed s k).1 := by
  cases hf : (feed s k).2 with
  | none =>
    obtain ⟨hr, hi⟩ := h.none hf
    unfold Upl.released
    split at hr
    · rw [hr]; exact hi
    · obtain ⟨e, hr, _⟩ := hr
      rw [hr]; exact hi
  | some x =>
    obtain ⟨q2, first, data⟩ := x
    obtain ⟨ref, hr, _, hi, _⟩ := h.some q2 first data hf
    unfold Upl.released
    rw [hr]
    exact hi

/-- The session of the host agrees with the upload buffer. -/
theorem Dev.step_session {cfg : Config} {env : Env} {ev : Event} {s : Dev} {o : Option (Session Accessor)}
    (hg : Good env ev) (h : UplInv s.upl o) (out : Output) :
    UplInv (s.step cfg env ev).1.upl (sessionStep cfg o ⟨s, env, ev, out⟩) := by
  rw [Dev.step_upl _ _ _ hg.full]
  unfold sessionStep
  simp only
  split
  · exact UplInv.init h.3
  · split
    · cases hp : ev.packet cfg.build with
      | none => exact h
      | some k =>
        simp only [hg.copy, hg.append]
        exact Upl.released_fed (Upl.upload_fed h k (Event.packet_length hp))
    · exact h

theorem Dev.trace_session {cfg : Config} {s : Dev} {es : List (Env × Event)} {o : Option (Session Accessor)}
    (hg : ∀ e ∈ es, Good e.1 e.2) (h : UplInv s.upl o) :
    UplInv (s.run cfg es).1.upl ((s.trace cfg es).foldl (sessionStep cfg) o) := by
  induction es generalizing s o with
  | nil => exact h
  | cons x xs ih => exact ih (fun e he => hg e (by simp [he])) (Dev.step_session (hg x (by simp)) h _)

theorem factory_session {cfg : Config} {new : NewDevice} (hu : new.upload.length = uploadCapacity)
    {es : List (Env × Event)} (hg : ∀ e ∈ es, Good e.1 e.2) :
    UplInv ((Dev.factory new).run cfg es).1.upl (sessionIn cfg ((Dev.factory new).trace cfg es)) :=
  Dev.trace_session hg (UplInv.init hu)

/-- A signing command gets what the host uploaded. -/
theorem Completes.feed {env : Env} {s : Dev} {acc : Accessor} {p1 p2 q2 : UInt8} {pl first data : Bytes} {u : Upl}
    {ref : MemRef} {o : Option (Session Accessor)} (hi : UplInv s.upl o) (hp : pl.length ≤ 255)
    (hc : env.copyF = .done) (ha : env.appendF = .done)
    (h : Completes env s acc p1 p2 (some pl) u q2 first data ref) :
    (Spec.feed o ⟨acc, p1, p2, pl⟩).2 = some (q2, first, data) ∧ ref.get u.buf = data ∧
      (u.drop acc).buf = u.buf.reset := by
  have hf := Upl.upload_fed hi ⟨acc, p1, p2, pl⟩ hp
  have he := h.eq
  rw [hc, ha] at he
  simp only [he] at hf
  cases hx : (Spec.feed o ⟨acc, p1, p2, pl⟩).2 with
  | none =>
    obtain ⟨hr, _⟩ := hf.none hx
    split at hr
    · cases hr
    · obtain ⟨e, hr, _⟩ := hr
      cases hr
  | some x =>
    obtain ⟨a, b, c⟩ := x
    obtain ⟨r, hr, h1, h2, h3⟩ := hf.some a b c hx
    cases hr
    exact ⟨rfl, h1, h3⟩

/-- What the host uploaded gets to the signing command. -/
theorem Completes.of_feed {env : Env} {s : Dev} {k : Packet Accessor} {q2 : UInt8} {first data : Bytes}
    {o : Option (Session Accessor)} (hi : UplInv s.upl o) (hp : k.payload.length ≤ 255)
    (hc : env.copyF = .done) (ha : env.appendF = .done) (h : (Spec.feed o k).2 = some (q2, first, data)) :
    ∃ u ref, Completes env s k.family k.p1 k.p2 (some k.payload) u q2 first data ref := by
  have hf := Upl.upload_fed hi k hp
  obtain ⟨r, hr, h1, h2, h3⟩ := hf.some q2 first data h
  rw [← hc] at hr
  exact ⟨_, r, ⟨by rw [ha, ← hr, ← hc]⟩⟩

/-- An acknowledged packet only changes the upload buffer. -/
theorem Dev.step_acked {cfg : Config} {env : Env} {ev : Event} {s : Dev} {o : Option (Session Accessor)}
    {k : Packet Accessor} (hg : Good env ev) (hrun : s.running = true) (hi : UplInv s.upl o)
    (hk : ev.packet cfg.build = some k) (ha : acks o k = true) :
    ∃ u, UplInv u (feed o k).1 ∧
      s.step cfg env ev = ({ s with upl := u }, ⟨some (statusWord .success), none, none⟩) := by
  obtain ⟨buf, rx, c, hrec, hacc, h1, h2, h3⟩ := Event.packet_received hrun hk
  have hfull : buf.length = 260 := by
    have := hg.full
    rw [hrec.ev] at this
    exact this
  have hf := Upl.upload_fed hi k (Event.packet_length hk)
  have hnone : (feed o k).2 = none := by
    unfold acks at ha
    unfold feed
    cases hr : role k.p1 with
    | none => rfl
    | some r =>
      rw [hr] at ha
      cases r with
      | opening => rfl
      | closing => cases o <;> cases ha
      | middle =>
        cases o with
        | none => cases ha
        | some s =>
          simp only
          split <;> rfl
  obtain ⟨hm, hu⟩ := hf.none hnone
  rw [if_pos ha] at hm
  refine ⟨_, hu, ?_⟩
  rw [hrec.step, apduPayload_full hfull, ← h1, ← h2, ← h3]
  have hx : s.upl.upload env.copyF env.appendF k.family k.p1 k.p2 (some k.payload) =
      ((s.upl.upload .done .done k.family k.p1 k.p2 (some k.payload)).1, .more) := by
    rw [hg.copy, hg.append, ← hm]
  cases c with
  | bakerSign h =>
    simp only [Cmd.accessor, Option.some.injEq] at hacc
    simp only [Dev.exec, Dev.cmdUpload, hacc, hx]
    rfl
  | sign h =>
    simp only [Cmd.accessor, Option.some.injEq] at hacc
    simp only [Dev.exec, Dev.cmdUpload, hacc, hx]
    rfl
  | _ => cases hacc

/-- The event delivers an APDU to the app: header, data, and whatever is left in the exchange buffer after it. -/
structure Carries (ev : Event) (ins p1 p2 : UInt8) (data : Bytes) : Prop where
  ex : ∃ tail, ev = .apdu ([0x80, ins, p1, p2, UInt8.ofNat data.length] ++ data ++ tail) (5 + data.length) ∧
    data.length + tail.length = 255

theorem Carries.full {ev : Event} {ins p1 p2 : UInt8} {data : Bytes} (h : Carries ev ins p1 p2 data) : ev.Full := by
  obtain ⟨tail, rfl, hl⟩ := h.ex
  simp only [Event.Full, List.length_append, List.length_cons, List.length_nil]
  omega

theorem Carries.length {ev : Event} {ins p1 p2 : UInt8} {data : Bytes} (h : Carries ev ins p1 p2 data) :
    data.length ≤ 255 := by
  obtain ⟨tail, rfl, hl⟩ := h.ex
  omega

theorem Carries.received {cfg : Config} {s : Dev} {ev : Event} {ins p1 p2 : UInt8} {data : Bytes} {c : Cmd}
    (h : Carries ev ins p1 p2 data) (hrun : s.running = true) (hc : command cfg.build ins = some c) :
    ∃ buf, Received cfg s ev buf (5 + data.length) c ∧ buf.getD 2 0 = p1 ∧ buf.getD 3 0 = p2 ∧
      apduPayload buf = some data := by
  obtain ⟨tail, rfl, hl⟩ := h.ex
  refine ⟨_, ⟨rfl, hrun, ⟨by omega, by simp; omega⟩, rfl, ins, rfl, hc⟩, rfl, rfl, ?_⟩
  have hn : (UInt8.ofNat data.length).toNat = data.length := by
    rw [UInt8.toNat_ofNat']
    omega
  unfold apduPayload
  have h4 : ([0x80, ins, p1, p2, UInt8.ofNat data.length] ++ data ++ tail).getD 4 0 = UInt8.ofNat data.length := rfl
  simp only [h4, hn]
  rw [if_pos (by simp; omega)]
  simp [slice]

theorem Carries.packet {b : Build} {ev : Event} {ins p1 p2 : UInt8} {data : Bytes} {f : Accessor}
    (h : Carries ev ins p1 p2 data) (hf : familyOf b ins = some f) : ev.packet b = some ⟨f, p1, p2, data⟩ := by
  obtain ⟨tail, rfl, hl⟩ := h.ex
  have hn : (UInt8.ofNat data.length).toNat = data.length := by
    rw [UInt8.toNat_ofNat']
    omega
  have h4 : ([0x80, ins, p1, p2, UInt8.ofNat data.length] ++ data ++ tail).getD 4 0 = UInt8.ofNat data.length := rfl
  simp only [Event.packet, h4, hn]
  rw [if_pos ⟨by omega, by simp; omega, rfl⟩]
  have h1 : ([0x80, ins, p1, p2, UInt8.ofNat data.length] ++ data ++ tail)[1]? = some ins := rfl
  rw [h1]
  simp only [Option.bind_some, hf, Option.map_some, Option.some.injEq, Packet.mk.injEq, true_and]
  refine ⟨rfl, rfl, ?_⟩
  simp [slice]

/-- Middle packets of instruction `ins` carrying `data` between them. -/
inductive Chunks (ins : UInt8) : List Event → Bytes → Prop where
  | nil : Chunks ins [] []
  | cons {p1 p2 : UInt8} {c data : Bytes} {ev : Event} {evs : List Event} (hr : role p1 = some .middle)
      (hc : Carries ev ins p1 p2 c) (h : Chunks ins evs data) : Chunks ins (ev :: evs) (c ++ data)

/-- Events uploading `data` for the key `key` with instruction `ins`, up to the packet that completes it: an opening
packet with the curve in p2 and the key, then chunks. -/
inductive Uploading (ins p2 : UInt8) (key data : Bytes) : List Event → Prop where
  | mk {p1 : UInt8} {ev : Event} {mids : List Event} (hr : role p1 = some .opening) (hc : Carries ev ins p1 p2 key)
      (h : Chunks ins mids data) : Uploading ins p2 key data (ev :: mids)

/-- The answers to acknowledged packets. -/
def acknowledged : Output := ⟨some (statusWord .success), none, none⟩

theorem chunks_acked {cfg : Config} {ins : UInt8} {f : Accessor} (hf : familyOf cfg.build ins = some f)
    {mids : List (Env × Event)} {data : Bytes} (hall : Chunks ins (mids.map Prod.snd) data) {s : Dev}
    (hrun : s.running = true) {o : Session Accessor} (hi : UplInv s.upl (some o)) (hfam : o.family = f)
    (hfit : 1 + o.first.length + o.rest.length + data.length ≤ uploadCapacity) (hg : ∀ e ∈ mids, Good e.1 e.2) :
    ∃ u, UplInv u (some { o with rest := o.rest ++ data }) ∧
      s.run cfg mids = ({ s with upl := u }, mids.map fun _ => acknowledged) := by
  induction mids generalizing s o data with
  | nil =>
    cases hall
    exact ⟨s.upl, by simpa using hi, rfl⟩
  | cons x xs ih =>
    cases hall with
    | @cons p1 p2 c data _ _ hr hc hxs =>
      have hp := hc.packet hf
      simp only [List.length_append] at hfit
      have hak : acks (some o) ⟨f, p1, p2, c⟩ = true := by
        simp only [acks, hr, hfam, true_and, decide_eq_true_eq]
        omega
      have hfeed : (feed (some o) ⟨f, p1, p2, c⟩).1 = some { o with rest := o.rest ++ c } := by
        simp only [feed, hr, hfam, true_and]
        rw [if_pos (by omega)]
      obtain ⟨u, hu, hs⟩ := Dev.step_acked (hg x (by simp)) hrun hi hp hak
      rw [hfeed] at hu
      obtain ⟨u', hu', hs'⟩ := ih hxs (s := { s with upl := u }) (o := { o with rest := o.rest ++ c }) hrun hu hfam
        (by simp only [List.length_append]; omega) (fun e he => hg e (by simp [he]))
      refine ⟨u', ?_, ?_⟩
      · simpa using hu'
      · simp only [Dev.run, hs, hs', List.map_cons]
        rfl

/-- Uploading a message is acknowledged packet by packet, whatever upload was going on before. -/
theorem Uploading.run {cfg : Config} {ins p2 : UInt8} {key data : Bytes} {f : Accessor}
    (hf : familyOf cfg.build ins = some f) {es : List (Env × Event)} (h : Uploading ins p2 key data (es.map Prod.snd))
    {s : Dev} (hrun : s.running = true) {o : Option (Session Accessor)} (hi : UplInv s.upl o)
    (hfit : 1 + key.length + data.length ≤ uploadCapacity) (hg : ∀ e ∈ es, Good e.1 e.2) :
    ∃ u, UplInv u (some ⟨f, p2, key, data⟩) ∧
      s.run cfg es = ({ s with upl := u }, es.map fun _ => acknowledged) := by
  cases es with
  | nil => cases h
  | cons x xs =>
    obtain ⟨hr, hc, hall⟩ := h
    rename_i p1
    have hp := hc.packet hf
    obtain ⟨u, hu, hs⟩ := Dev.step_acked (o := o) (hg x (by simp)) hrun hi hp (by simp only [acks, hr])
    have hfeed : (feed o ⟨f, p1, p2, key⟩).1 = some ⟨f, p2, key, []⟩ := by simp only [feed, hr]
    rw [hfeed] at hu
    obtain ⟨u', hu', hs'⟩ := chunks_acked hf hall (s := { s with upl := u }) hrun hu rfl (by simpa using hfit)
      (fun e he => hg e (by simp [he]))
    refine ⟨u', by simpa using hu', ?_⟩
    simp only [Dev.run, hs, hs', List.map_cons]
    rfl

end Tezos
