import Verif.Upload
import Verif.Spec.Upload
/-
C24-C27: chunked uploads.
-/
namespace Tezos
open Spec

/-- One packet handled by a command: `Uploader::upload`, and the drop of a complete upload when the command returns
(rust/app/src/utils/buffer_upload.rs 81-94). After a power loss the app starts again: RAM is lost, the flash part of
the buffer keeps its contents. -/
def Upl.packet (fc fa : WriteFate) (k : Packet Accessor) (u : Upl) : Upl × UplRes :=
  let (u', r) := u.upload fc fa k.family k.p1 k.p2 (some k.payload)
  match r with
  | .complete .. => (u'.drop k.family, r)
  | .powerLoss => (Upl.init u'.buf.flash, r)
  | _ => (u', r)

/-- What the host sees. -/
def UplRes.seen : UplRes → Seen
  | .more => .acked
  | .complete .. => .completed
  | .powerLoss => .powerLost
  | .err _ => .refused
  | .panic => .refused

/-- The session invariant relating the modelled upload state to the specification. -/
structure UplInv (u : Upl) (s : Option (Session Accessor)) : Prop where
  wf : u.buf.WF
  ramLen : u.buf.ram.length = 0xFF
  flashLen : u.buf.flash.length = uploadCapacity
  session : match s with
    | none => u.lock = none
    | some s => u.lock = some s.family ∧ u.buf.readExact = s.p2 :: (s.first ++ s.rest) ∧
        u.initLen = s.first.length

theorem UplInv.init {flash : Bytes} (h : flash.length = uploadCapacity) : UplInv (Upl.init flash) none :=
  ⟨⟨by
    show (List.replicate 0xFF (0 : UInt8)).length ≤ flash.length
    rw [List.length_replicate, h]; decide, Nat.zero_le _⟩, List.length_replicate, h, rfl⟩

theorem tryEither_role (p1 : UInt8) :
    match role p1 with
    | none => PacketType.tryEither p1 = none
    | some .opening => ∃ t, PacketType.tryEither p1 = some t ∧ t.isInit = true
    | some .middle => ∃ t, PacketType.tryEither p1 = some t ∧ t.isInit = false ∧ t.isNext = true
    | some .closing => ∃ t, PacketType.tryEither p1 = some t ∧ t.isInit = false ∧ t.isNext = false ∧
        t.isLast = true := by
  by_cases h0 : p1 = 0x00; · subst h0; exact ⟨_, rfl, rfl⟩
  by_cases h80 : p1 = 0x80; · subst h80; exact ⟨_, rfl, rfl⟩
  by_cases h1 : p1 = 0x01; · subst h1; exact ⟨_, rfl, rfl, rfl⟩
  by_cases h3 : p1 = 0x03; · subst h3; exact ⟨_, rfl, rfl, rfl⟩
  by_cases h2 : p1 = 0x02; · subst h2; exact ⟨_, rfl, rfl, rfl, rfl⟩
  by_cases h81 : p1 = 0x81; · subst h81; exact ⟨_, rfl, rfl, rfl, rfl⟩
  by_cases h83 : p1 = 0x83; · subst h83; exact ⟨_, rfl, rfl, rfl, rfl⟩
  simp [role, PacketType.tryEither, PacketType.ofZ, PacketType.ofLegacy, *]

/-- Everything one packet can do, in terms of the specification. -/
structure PacketSpec (u u' : Upl) (s : Option (Session Accessor)) (k : Packet Accessor) (r : UplRes) : Prop where
  inv : (role k.p1 = some .opening → r.seen ≠ .refused) → UplInv u' (after s k r.seen)
  sizes : u'.buf.WF ∧ u'.buf.ram.length = 0xFF ∧ u'.buf.flash.length = uploadCapacity
  complete : ∀ p2 first data ref, r = .complete p2 first data ref →
    role k.p1 = some .closing ∧ ∃ s', s = some s' ∧ s'.family = k.family ∧ p2 = s'.p2 ∧
      first = s'.first ∧ data = s'.rest ++ k.payload
  noPanic : r ≠ .panic

theorem Upl.packet_spec {u : Upl} {s : Option (Session Accessor)} (h : UplInv u s) (fc fa : WriteFate)
    (k : Packet Accessor) : PacketSpec u (u.packet fc fa k).1 s k (u.packet fc fa k).2 := by
  have hr := tryEither_role k.p1
  obtain ⟨hwf, hram, hflash, hs⟩ := h
  cases hrole : role k.p1 with
  | none =>
    rw [hrole] at hr
    simp only at hr
    simp only [Upl.packet, Upl.upload, hr]
    refine ⟨fun _ => ?_, ⟨hwf, hram, hflash⟩, by simp, by simp⟩
    simp only [after, hrole, UplRes.seen]
    exact ⟨hwf, hram, hflash, hs⟩
  | some ro =>
    rw [hrole] at hr
    cases ro with
    | opening =>
      obtain ⟨t, ht, hi⟩ := hr
      simp only [Upl.packet, Upl.upload, ht, hi, if_true]
      have w1 := SwapBuf.write_spec hwf.reset fc fa [k.p2]
      generalize hb1 : (u.buf.reset.write fc fa [k.p2]) = x1 at w1
      obtain ⟨b1, r1⟩ := x1
      simp only at w1 ⊢
      have l1 : b1.ram.length = 0xFF ∧ b1.flash.length = uploadCapacity :=
        ⟨by rw [w1.ramLen]; exact hram, by rw [w1.flashLen]; exact hflash⟩
      cases r1 with
      | ok =>
        simp only [UplRes.ofWrite]
        have w2 := SwapBuf.write_spec w1.wf fc fa k.payload
        generalize hb2 : (b1.write fc fa k.payload) = x2 at w2
        obtain ⟨b2, r2⟩ := x2
        simp only at w2 ⊢
        have l2 : b2.ram.length = 0xFF ∧ b2.flash.length = uploadCapacity :=
          ⟨by rw [w2.ramLen]; exact l1.1, by rw [w2.flashLen]; exact l1.2⟩
        cases r2 with
        | ok =>
          simp only
          refine ⟨fun _ => ⟨w2.wf, l2.1, l2.2, ?_⟩, ⟨w2.wf, l2.1, l2.2⟩, by simp, by simp⟩
          simp only [after, hrole, UplRes.seen]
          refine ⟨by simp [lockLock], ?_, by simp⟩
          have e1 := (w1.ok rfl).1
          have e2 := (w2.ok rfl).1
          rw [e2, e1]
          simp
        | err =>
          exact ⟨fun h => absurd rfl (h hrole), ⟨w2.wf, l2.1, l2.2⟩, by simp, by simp⟩
        | powerLoss =>
          have hI := UplInv.init l2.2
          refine ⟨fun _ => ?_, ⟨hI.wf, hI.ramLen, hI.flashLen⟩, by simp, by simp⟩
          simp only [after, UplRes.seen]
          exact hI
        | panic => exact absurd rfl w2.noPanic
      | err =>
        exact ⟨fun h => absurd rfl (h hrole), ⟨w1.wf, l1.1, l1.2⟩, by simp [UplRes.ofWrite],
          by simp [UplRes.ofWrite]⟩
      | powerLoss =>
        have hI := UplInv.init l1.2
        refine ⟨fun _ => ?_, ⟨hI.wf, hI.ramLen, hI.flashLen⟩, by simp [UplRes.ofWrite],
          by simp [UplRes.ofWrite]⟩
        simp only [after, UplRes.seen, UplRes.ofWrite]
        exact hI
      | panic => exact absurd rfl w1.noPanic
    | middle =>
      obtain ⟨t, ht, hi, hn⟩ := hr
      simp only [Upl.packet, Upl.upload, ht, hi, hn, if_true, Bool.false_eq_true, if_false]
      cases s with
      | none =>
        simp only at hs
        simp only [lockAcquire, hs]
        refine ⟨fun _ => ?_, ⟨hwf, hram, hflash⟩, by simp, by simp⟩
        simp only [after, hrole, UplRes.seen]
        exact ⟨hwf, hram, hflash, hs⟩
      | some s =>
        obtain ⟨hl, hre, hil⟩ := hs
        by_cases hfam : s.family = k.family
        · have hacq : lockAcquire u.lock k.family = .ok () := by simp [lockAcquire, hl, hfam]
          rw [hacq]
          simp only
          have w := SwapBuf.write_spec hwf fc fa k.payload
          generalize hb : (u.buf.write fc fa k.payload) = x at w
          obtain ⟨b, r⟩ := x
          simp only at w ⊢
          have l : b.ram.length = 0xFF ∧ b.flash.length = uploadCapacity :=
            ⟨by rw [w.ramLen]; exact hram, by rw [w.flashLen]; exact hflash⟩
          cases r with
          | ok =>
            simp only [UplRes.ofWrite]
            refine ⟨fun _ => ?_, ⟨w.wf, l.1, l.2⟩, by simp, by simp⟩
            simp only [after, hrole, UplRes.seen, Option.map_some]
            refine ⟨w.wf, l.1, l.2, hl, ?_, hil⟩
            rw [(w.ok rfl).1, hre]
            simp
          | err =>
            refine ⟨fun _ => ?_, ⟨w.wf, l.1, l.2⟩, by simp [UplRes.ofWrite], by simp [UplRes.ofWrite]⟩
            simp only [after, hrole, UplRes.seen, UplRes.ofWrite]
            exact ⟨w.wf, l.1, l.2, hl, by rw [w.notOk (by simp), hre], hil⟩
          | powerLoss =>
            have hI := UplInv.init l.2
            refine ⟨fun _ => ?_, ⟨hI.wf, hI.ramLen, hI.flashLen⟩, by simp [UplRes.ofWrite],
              by simp [UplRes.ofWrite]⟩
            simp only [after, UplRes.seen, UplRes.ofWrite]
            exact hI
          | panic => exact absurd rfl w.noPanic
        · have hacq : lockAcquire u.lock k.family = .error .busy := by simp [lockAcquire, hl, hfam]
          rw [hacq]
          simp only
          refine ⟨fun _ => ?_, ⟨hwf, hram, hflash⟩, by simp, by simp⟩
          simp only [after, hrole, UplRes.seen]
          exact ⟨hwf, hram, hflash, hl, hre, hil⟩
    | closing =>
      obtain ⟨t, ht, hi, hn, hla⟩ := hr
      simp only [Upl.packet, Upl.upload, ht, hi, hn, hla, if_true, Bool.false_eq_true, if_false]
      cases s with
      | none =>
        simp only at hs
        simp only [lockAcquire, hs]
        refine ⟨fun _ => ?_, ⟨hwf, hram, hflash⟩, by simp, by simp⟩
        simp only [after, hrole, UplRes.seen]
        exact ⟨hwf, hram, hflash, hs⟩
      | some s =>
        obtain ⟨hl, hre, hil⟩ := hs
        by_cases hfam : s.family = k.family
        · have hacq : lockAcquire u.lock k.family = .ok () := by simp [lockAcquire, hl, hfam]
          rw [hacq]
          simp only
          have w := SwapBuf.write_spec hwf fc fa k.payload
          generalize hb : (u.buf.write fc fa k.payload) = x at w
          obtain ⟨b, r⟩ := x
          simp only at w ⊢
          have l : b.ram.length = 0xFF ∧ b.flash.length = uploadCapacity :=
            ⟨by rw [w.ramLen]; exact hram, by rw [w.flashLen]; exact hflash⟩
          cases r with
          | ok =>
            have hre2 : b.readExact = s.p2 :: (s.first ++ (s.rest ++ k.payload)) := by
              rw [(w.ok rfl).1, hre]; simp
            simp only [UplRes.ofWrite, hre2, hil]
            rw [if_pos (by simp)]
            simp only
            have hdrop : (({ lock := u.lock, buf := b, initLen := s.first.length } : Upl).drop k.family)
                = { lock := none, buf := b.reset, initLen := s.first.length } := by
              simp [Upl.drop, lockAcquire, lockRelease, hl, hfam]
            rw [hdrop]
            refine ⟨fun _ => ?_, ⟨w.wf.reset, l.1, l.2⟩, ?_, by simp⟩
            · simp only [after, hrole, UplRes.seen]
              exact ⟨w.wf.reset, l.1, l.2, rfl⟩
            · intro p2 first data ref heq
              simp only [UplRes.complete.injEq] at heq
              obtain ⟨rfl, rfl, rfl, rfl⟩ := heq
              exact ⟨hrole, s, rfl, hfam, rfl, by simp, by simp⟩
          | err =>
            refine ⟨fun _ => ?_, ⟨w.wf, l.1, l.2⟩, by simp [UplRes.ofWrite], by simp [UplRes.ofWrite]⟩
            simp only [after, hrole, UplRes.seen, UplRes.ofWrite]
            exact ⟨w.wf, l.1, l.2, hl, by rw [w.notOk (by simp), hre], hil⟩
          | powerLoss =>
            have hI := UplInv.init l.2
            refine ⟨fun _ => ?_, ⟨hI.wf, hI.ramLen, hI.flashLen⟩, by simp [UplRes.ofWrite],
              by simp [UplRes.ofWrite]⟩
            simp only [after, UplRes.seen, UplRes.ofWrite]
            exact hI
          | panic => exact absurd rfl w.noPanic
        · have hacq : lockAcquire u.lock k.family = .error .busy := by simp [lockAcquire, hl, hfam]
          rw [hacq]
          simp only
          refine ⟨fun _ => ?_, ⟨hwf, hram, hflash⟩, by simp, by simp⟩
          simp only [after, hrole, UplRes.seen]
          exact ⟨hwf, hram, hflash, hl, hre, hil⟩

/-- A packet with the outcome of the (at most two) flash writes handling it may need. -/
structure SentPacket where
  packet : Packet Accessor
  copyFate : WriteFate
  appendFate : WriteFate

/-- The modelled upload state and the results of a history of packets. -/
def uplRun (u : Upl) : List SentPacket → Upl × List (Packet Accessor × UplRes)
  | [] => (u, [])
  | k :: ks =>
    let (u1, r) := u.packet k.copyFate k.appendFate k.packet
    let (u2, rs) := uplRun u1 ks
    (u2, (k.packet, r) :: rs)

/-- What the host saw of a history. -/
def seenOf (h : List (Packet Accessor × UplRes)) : List (Packet Accessor × Seen) :=
  h.map fun x => (x.1, x.2.seen)

/-- No opening packet of the history was answered with an error. -/
def openingsAcked (h : List (Packet Accessor × UplRes)) : Prop :=
  ∀ x ∈ h, role x.1.p1 = some .opening → x.2.seen ≠ .refused

theorem uplRun_inv {u : Upl} {s : Option (Session Accessor)} (h : UplInv u s) (ks : List SentPacket)
    (ho : openingsAcked (uplRun u ks).2) :
    UplInv (uplRun u ks).1 (sessionOf s (seenOf (uplRun u ks).2)) := by
  induction ks generalizing u s with
  | nil => exact h
  | cons k ks ih =>
    have hp := Upl.packet_spec h k.copyFate k.appendFate k.packet
    simp only [uplRun] at ho ⊢
    generalize hx : u.packet k.copyFate k.appendFate k.packet = x at *
    obtain ⟨u1, r⟩ := x
    simp only at *
    have h1 : UplInv u1 (after s k.packet r.seen) := hp.inv (ho (k.packet, r) (by simp))
    exact ih h1 (fun x hx => ho x (by simp [hx]))

/-- C24. From app start, through any history of packets of any commands (with any outcome of the flash
writes, including power losses) in which no opening packet was answered with an error, if the next packet completes an upload then it is a
closing packet of the command family that opened the current session, and the command receives exactly
the p2 and payload of the opening packet and the concatenation of the payloads acknowledged since,
followed by the closing packet's payload. -/
theorem C24_upload_delivers_acknowledged {flash : Bytes} (hf : flash.length = uploadCapacity)
    {ks : List SentPacket} (ho : openingsAcked (uplRun (Upl.init flash) ks).2)
    {k : SentPacket} {p2 : UInt8} {first data : Bytes} {ref : MemRef}
    (hc : ((uplRun (Upl.init flash) ks).1.packet k.copyFate k.appendFate k.packet).2
      = .complete p2 first data ref) :
    role k.packet.p1 = some .closing ∧
    ∃ s, sessionOf none (seenOf (uplRun (Upl.init flash) ks).2) = some s ∧
      s.family = k.packet.family ∧ p2 = s.p2 ∧ first = s.first ∧ data = s.rest ++ k.packet.payload :=
  (Upl.packet_spec (uplRun_inv (UplInv.init hf) ks ho) k.copyFate k.appendFate k.packet).complete
    p2 first data ref hc

/-- A case of C24: an opening packet, two middle packets of which one is sent by another command and
refused, and a closing packet. -/
example :
    let ks : List SentPacket := [
      ⟨⟨.sign, 0, 1, [9, 9]⟩, .done, .done⟩,
      ⟨⟨.sign, 1, 0, [1, 2, 3]⟩, .done, .done⟩,
      ⟨⟨.baking, 1, 0, [7]⟩, .done, .done⟩]
    let u := (uplRun (Upl.init (List.replicate 8191 0)) ks).1
    openingsAcked (uplRun (Upl.init (List.replicate 8191 0)) ks).2 ∧
    ∃ ref, (u.packet .done .done ⟨.sign, 0x81, 0, [4]⟩).2 = .complete 1 [9, 9] [1, 2, 3, 4] ref := by
  refine ⟨?_, ?_⟩
  · unfold openingsAcked; decide +kernel
  · exact ⟨⟨false, 3, 4⟩, by decide +kernel⟩

/-- With working flash a write that fits succeeds. -/
theorem SwapBuf.write_done {b : SwapBuf} (hb : b.WF) {bs : Bytes}
    (hfit : b.cnt + bs.length ≤ b.flash.length) : (b.write .done .done bs).2 = .ok := by
  have hsz := hb.sizes
  unfold SwapBuf.write
  split
  · unfold SwapBuf.writeFlash
    rw [if_neg (by omega)]
  · split
    · rw [if_neg (by omega)]
      simp only [SwapBuf.writeFlash]
      have : (overwrite b.flash 0 b.ram).length = b.flash.length := overwrite_length (by omega)
      rw [if_neg (by simp only [this]; omega)]
    · rfl

/-- The state of the device's upload after a history. -/
abbrev uplAfter (flash : Bytes) (ks : List SentPacket) : Upl := (uplRun (Upl.init flash) ks).1

/-- The session an observer derives from a history. -/
abbrev sessionAfter (flash : Bytes) (ks : List SentPacket) : Option (Session Accessor) :=
  sessionOf none (seenOf (uplRun (Upl.init flash) ks).2)

/-- With working flash a packet of the open session that fits is accepted. -/
theorem UplInv.fitting {u : Upl} {s : Session Accessor} (hI : UplInv u (some s)) {k : Packet Accessor}
    (hfam : k.family = s.family)
    (hfit : 1 + s.first.length + s.rest.length + k.payload.length ≤ uploadCapacity) :
    (role k.p1 = some .middle → (u.packet .done .done k).2 = .more) ∧
    (role k.p1 = some .closing → ∃ ref, (u.packet .done .done k).2
      = .complete s.p2 s.first (s.rest ++ k.payload) ref) := by
  obtain ⟨hwf, hram, hflash, hl, hre, hil⟩ := hI
  have hcnt : u.buf.cnt = 1 + s.first.length + s.rest.length := by
    rw [← hwf.readExact_length, hre]; simp; omega
  have w := SwapBuf.write_spec hwf .done .done k.payload
  have hok : (u.buf.write .done .done k.payload).2 = .ok :=
    SwapBuf.write_done hwf (by rw [hcnt, hflash]; omega)
  have hacq : lockAcquire u.lock k.family = .ok () := by
    simp [lockAcquire, hl, hfam]
  have hr := tryEither_role k.p1
  constructor
  · intro hrole
    rw [hrole] at hr
    obtain ⟨t, ht, hi, hn⟩ := hr
    simp only [Upl.packet, Upl.upload, ht, hi, hn, if_true, Bool.false_eq_true, if_false, hacq]
    generalize u.buf.write .done .done k.payload = x at hok
    obtain ⟨b, r⟩ := x
    simp only at hok
    subst hok
    rfl
  · intro hrole
    rw [hrole] at hr
    obtain ⟨t, ht, hi, hn, hla⟩ := hr
    simp only [Upl.packet, Upl.upload, ht, hi, hn, hla, if_true, Bool.false_eq_true, if_false, hacq]
    generalize u.buf.write .done .done k.payload = x at hok w
    obtain ⟨b, r⟩ := x
    simp only at hok
    subst hok
    have hre2 : b.readExact = s.p2 :: (s.first ++ (s.rest ++ k.payload)) := by
      rw [(w.ok rfl).1, hre]; simp
    simp only [UplRes.ofWrite, hre2, hil]
    rw [if_pos (by simp)]
    simp

/-- C25. In every reachable state with an open session, a middle or closing packet of that session whose
payload would make the total exceed the capacity is refused with DataInvalid (unless power is lost while
it is handled), and nothing of it is kept: a closing packet that fits, sent in its place, completes the upload with what
was acknowledged before. -/
theorem C25_oversized_refused {flash : Bytes} (hf : flash.length = uploadCapacity)
    {ks : List SentPacket} (ho : openingsAcked (uplRun (Upl.init flash) ks).2)
    {s : Session Accessor} (hs : sessionAfter flash ks = some s) {k : SentPacket}
    (hfam : k.packet.family = s.family)
    (hrole : role k.packet.p1 = some .middle ∨ role k.packet.p1 = some .closing)
    (hbig : uploadCapacity < 1 + s.first.length + s.rest.length + k.packet.payload.length) :
    let res := (uplAfter flash ks).packet k.copyFate k.appendFate k.packet
    (res.2 = .err .dataInvalid ∧ ∀ k2 : Packet Accessor, k2.family = s.family → role k2.p1 = some .closing →
      1 + s.first.length + s.rest.length + k2.payload.length ≤ uploadCapacity →
      ∃ ref, (res.1.packet .done .done k2).2 = .complete s.p2 s.first (s.rest ++ k2.payload) ref) ∨
    res.2 = .powerLoss := by
  have hI := uplRun_inv (UplInv.init hf) ks ho
  rw [show sessionOf none (seenOf (uplRun (Upl.init flash) ks).2) = some s from hs] at hI
  have hI2 := hI
  obtain ⟨hwf, hram, hflash, hl, hre, hil⟩ := hI
  have hcnt : (uplAfter flash ks).buf.cnt = 1 + s.first.length + s.rest.length := by
    rw [← hwf.readExact_length, hre]; simp; omega
  have w := SwapBuf.write_spec hwf k.copyFate k.appendFate k.packet.payload
  have hnok : ((uplAfter flash ks).buf.write k.copyFate k.appendFate k.packet.payload).2 ≠ .ok := by
    intro h
    have := (w.ok h).2
    rw [hcnt, hflash] at this
    omega
  have hacq : lockAcquire (uplAfter flash ks).lock k.packet.family = .ok () := by
    simp [lockAcquire, hl, hfam]
  have hsp := Upl.packet_spec hI2 k.copyFate k.appendFate k.packet
  have hres : ((uplAfter flash ks).packet k.copyFate k.appendFate k.packet).2 = .err .dataInvalid ∨
      ((uplAfter flash ks).packet k.copyFate k.appendFate k.packet).2 = .powerLoss := by
    have hr := tryEither_role k.packet.p1
    rcases hrole with hrole | hrole
    · rw [hrole] at hr
      obtain ⟨t, ht, hi, hn⟩ := hr
      simp only [Upl.packet, Upl.upload, ht, hi, hn, if_true, Bool.false_eq_true, if_false, hacq]
      generalize (uplAfter flash ks).buf.write k.copyFate k.appendFate k.packet.payload = x at w hnok
      obtain ⟨b, r⟩ := x
      cases r with
      | ok => exact absurd rfl hnok
      | err => left; rfl
      | powerLoss => right; rfl
      | panic => exact absurd rfl w.noPanic
    · rw [hrole] at hr
      obtain ⟨t, ht, hi, hn, hla⟩ := hr
      simp only [Upl.packet, Upl.upload, ht, hi, hn, hla, if_true, Bool.false_eq_true, if_false, hacq]
      generalize (uplAfter flash ks).buf.write k.copyFate k.appendFate k.packet.payload = x at w hnok
      obtain ⟨b, r⟩ := x
      cases r with
      | ok => exact absurd rfl hnok
      | err => left; rfl
      | powerLoss => right; rfl
      | panic => exact absurd rfl w.noPanic
  intro res
  rcases hres with h | h
  · left
    refine ⟨h, ?_⟩
    have h2 := hsp.inv (by rcases hrole with hr | hr <;> simp [hr])
    rw [h] at h2
    have ha : after (some s) k.packet (UplRes.err ApduError.dataInvalid).seen = some s := by
      rcases hrole with hr | hr <;> simp [after, hr, UplRes.seen]
    rw [ha] at h2
    exact fun k2 hf2 hr2 hfit => (h2.fitting hf2 hfit).2 hr2
  · right; exact h

/-- C25, converse: with working flash a packet of the open session is refused only if it does not fit. -/
theorem C25_fitting_accepted {flash : Bytes} (hf : flash.length = uploadCapacity)
    {ks : List SentPacket} (ho : openingsAcked (uplRun (Upl.init flash) ks).2)
    {s : Session Accessor} (hs : sessionAfter flash ks = some s) {k : Packet Accessor}
    (hfam : k.family = s.family)
    (hfit : 1 + s.first.length + s.rest.length + k.payload.length ≤ uploadCapacity) :
    (role k.p1 = some .middle → ((uplAfter flash ks).packet .done .done k).2 = .more) ∧
    (role k.p1 = some .closing → ∃ ref, ((uplAfter flash ks).packet .done .done k).2
      = .complete s.p2 s.first (s.rest ++ k.payload) ref) := by
  have hI := uplRun_inv (UplInv.init hf) ks ho
  rw [show sessionOf none (seenOf (uplRun (Upl.init flash) ks).2) = some s from hs] at hI
  exact hI.fitting hfam hfit

theorem Upl.init_lock (flash : Bytes) : (Upl.init flash).lock = none := rfl

/-- The lock always names the family of the last opening packet. -/
theorem lock_eq_owner {u : Upl} {o : Option Accessor} (h : u.lock = o) (ks : List SentPacket) :
    (uplRun u ks).1.lock = ownerOf o (seenOf (uplRun u ks).2) := by
  induction ks generalizing u o with
  | nil => exact h
  | cons k ks ih =>
    simp only [uplRun, seenOf, List.map_cons, ownerOf]
    apply ih
    subst h
    have hr := tryEither_role k.packet.p1
    unfold Upl.packet Upl.upload
    cases hro : role k.packet.p1 with
    | none =>
      rw [hro] at hr
      simp only at hr
      simp [hr, owner, hro, UplRes.seen]
    | some ro =>
      rw [hro] at hr
      cases ro with
      | opening =>
        obtain ⟨t, ht, hi⟩ := hr
        simp only [ht, hi, if_true]
        generalize u.buf.reset.write k.copyFate k.appendFate [k.packet.p2] = x
        obtain ⟨b, r⟩ := x
        cases r with
        | ok =>
          simp only [UplRes.ofWrite]
          generalize b.write k.copyFate k.appendFate k.packet.payload = y
          obtain ⟨b, r⟩ := y
          cases r <;> simp [owner, hro, UplRes.seen, lockLock, Upl.init_lock]
        | err => simp [UplRes.ofWrite, owner, hro, UplRes.seen, lockLock]
        | powerLoss => simp [UplRes.ofWrite, owner, UplRes.seen, Upl.init_lock]
        | panic => simp [UplRes.ofWrite, owner, hro, UplRes.seen, lockLock]
      | middle =>
        obtain ⟨t, ht, hi, hn⟩ := hr
        simp only [ht, hi, hn, if_true, Bool.false_eq_true, if_false]
        cases hacq : lockAcquire u.lock k.packet.family with
        | error e => simp [owner, hro, UplRes.seen]
        | ok x =>
          simp only
          generalize u.buf.write k.copyFate k.appendFate k.packet.payload = y
          obtain ⟨b, r⟩ := y
          cases r <;> simp [UplRes.ofWrite, owner, hro, UplRes.seen, Upl.init_lock]
      | closing =>
        obtain ⟨t, ht, hi, hn, hla⟩ := hr
        simp only [ht, hi, hn, hla, if_true, Bool.false_eq_true, if_false]
        cases hacq : lockAcquire u.lock k.packet.family with
        | error e => simp [owner, hro, UplRes.seen]
        | ok x =>
          simp only
          generalize u.buf.write k.copyFate k.appendFate k.packet.payload = y
          obtain ⟨b, r⟩ := y
          cases r with
          | ok =>
            simp only [UplRes.ofWrite]
            have hlk : u.lock = some k.packet.family := by
              unfold lockAcquire at hacq
              split at hacq
              · split at hacq
                · simp_all
                · simp at hacq
              · simp at hacq
            cases b.readExact with
            | nil => simp [owner, hro, UplRes.seen]
            | cons d0 tail =>
              simp only
              by_cases hle : u.initLen ≤ tail.length
              · rw [if_pos hle]
                simp [owner, hro, UplRes.seen, Upl.drop, lockAcquire, lockRelease, hlk]
              · rw [if_neg hle]
                simp [owner, hro, UplRes.seen]
          | err => simp [UplRes.ofWrite, owner, hro, UplRes.seen]
          | powerLoss => simp [UplRes.ofWrite, owner, UplRes.seen, Upl.init_lock]
          | panic => simp [UplRes.ofWrite, owner, hro, UplRes.seen]

/-- C26. After any history of packets, a middle or closing packet is refused without any effect unless
the last opening packet (since the last completed upload or power loss) belongs to the same command
family: with 0x9001 (busy) if it belongs to another, with 0x6400 if there is none. -/
theorem C26_sessions_do_not_mix {flash : Bytes} {ks : List SentPacket} {k : SentPacket}
    (hrole : role k.packet.p1 = some .middle ∨ role k.packet.p1 = some .closing)
    (hown : ownerOf none (seenOf (uplRun (Upl.init flash) ks).2) ≠ some k.packet.family) :
    (uplAfter flash ks).packet k.copyFate k.appendFate k.packet =
      (uplAfter flash ks,
        .err (if ownerOf none (seenOf (uplRun (Upl.init flash) ks).2) = none then .executionError else .busy)) := by
  have hl := lock_eq_owner (u := Upl.init flash) (o := none) rfl ks
  rw [← hl] at hown ⊢
  have hacq : lockAcquire (uplAfter flash ks).lock k.packet.family =
      .error (if (uplAfter flash ks).lock = none then .notLocked else .busy) := by
    unfold lockAcquire
    cases hlk : (uplAfter flash ks).lock with
    | none => rfl
    | some o =>
      have : o ≠ k.packet.family := fun h => hown (by rw [show (uplRun (Upl.init flash) ks).1.lock = _ from hlk, h])
      simp [this]
  have hr := tryEither_role k.packet.p1
  rcases hrole with hrole | hrole
  · rw [hrole] at hr
    obtain ⟨t, ht, hi, hn⟩ := hr
    simp only [Upl.packet, Upl.upload, ht, hi, hn, if_true, Bool.false_eq_true, if_false, hacq]
    split <;> rfl
  · rw [hrole] at hr
    obtain ⟨t, ht, hi, hn, hla⟩ := hr
    simp only [Upl.packet, Upl.upload, ht, hi, hn, hla, if_true, Bool.false_eq_true, if_false, hacq]
    split <;> rfl

/-- A case of C26: the upload was opened by the other command family. -/
example : ownerOf none (seenOf (uplRun (Upl.init (List.replicate 8191 0))
    [⟨⟨.sign, 0, 1, [9, 9]⟩, .done, .done⟩, ⟨⟨.baking, 0, 1, [9, 9]⟩, .done, .done⟩]).2)
    = some .baking := by decide +kernel

/-- C27. The p1 byte decides the treatment of a packet, in every state: opening (0x00, 0x80), middle
(0x01, 0x03) and closing (0x02, 0x81, 0x83) are disjoint; only a closing packet can complete an upload;
every other p1 is refused with 0x6B00 and changes nothing. In particular the packet type named
"init and last" (0x80) only opens an upload. -/
theorem C27_packet_types (u : Upl) (k : SentPacket) :
    (∀ p2 first data ref, (u.packet k.copyFate k.appendFate k.packet).2 = .complete p2 first data ref →
      k.packet.p1 = 0x02 ∨ k.packet.p1 = 0x81 ∨ k.packet.p1 = 0x83) ∧
    ((u.packet k.copyFate k.appendFate k.packet).1.lock ≠ u.lock →
      k.packet.p1 ∉ [0x01, 0x03] ∨ (u.packet k.copyFate k.appendFate k.packet).2 = .powerLoss) ∧
    (k.packet.p1 ∉ [0x00, 0x80, 0x01, 0x03, 0x02, 0x81, 0x83] →
      u.packet k.copyFate k.appendFate k.packet = (u, .err .invalidP1P2) ∧
      ApduError.invalidP1P2.code = 0x6B00) := by
  have hr := tryEither_role k.packet.p1
  cases hro : role k.packet.p1 with
  | none =>
    rw [hro] at hr
    simp only at hr
    have he : u.packet k.copyFate k.appendFate k.packet = (u, .err .invalidP1P2) := by
      simp [Upl.packet, Upl.upload, hr]
    rw [he]
    exact ⟨by simp, by simp, fun _ => ⟨rfl, rfl⟩⟩
  | some ro =>
    have hmem : k.packet.p1 ∈ [0x00, 0x80, 0x01, 0x03, 0x02, 0x81, 0x83] := by
      unfold role at hro
      simp only [List.mem_cons, List.not_mem_nil, or_false]
      split at hro
      · rename_i h; rcases h with h | h <;> simp [h]
      · split at hro
        · rename_i h; rcases h with h | h <;> simp [h]
        · split at hro
          · rename_i h; rcases h with h | h | h <;> simp [h]
          · simp at hro
    refine ⟨?_, ?_, fun h => absurd hmem h⟩
    · rw [hro] at hr
      cases ro with
      | opening =>
        obtain ⟨t, ht, hi⟩ := hr
        intro p2 first data ref hc
        exfalso
        revert hc
        simp only [Upl.packet, Upl.upload, ht, hi, if_true]
        generalize u.buf.reset.write k.copyFate k.appendFate [k.packet.p2] = x
        obtain ⟨b, r⟩ := x
        cases r <;> simp [UplRes.ofWrite]
        generalize b.write k.copyFate k.appendFate k.packet.payload = y
        obtain ⟨b, r⟩ := y
        cases r <;> simp
      | middle =>
        obtain ⟨t, ht, hi, hn⟩ := hr
        intro p2 first data ref hc
        exfalso
        revert hc
        simp only [Upl.packet, Upl.upload, ht, hi, hn, if_true, Bool.false_eq_true, if_false]
        cases lockAcquire u.lock k.packet.family with
        | error e => simp
        | ok x =>
          simp only
          generalize u.buf.write k.copyFate k.appendFate k.packet.payload = y
          obtain ⟨b, r⟩ := y
          cases r <;> simp [UplRes.ofWrite]
      | closing =>
        intro _ _ _ _ _
        unfold role at hro
        split at hro; · simp at hro
        split at hro; · simp at hro
        split at hro
        · assumption
        · simp at hro
    · intro hlock
      have := lock_eq_owner (u := u) (o := u.lock) rfl [k]
      simp only [uplRun, seenOf, List.map_cons, List.map_nil, ownerOf] at this
      rw [this] at hlock
      by_cases hm : k.packet.p1 ∈ [0x01, 0x03]
      · right
        have hmid : role k.packet.p1 = some .middle := by
          simp only [List.mem_cons, List.not_mem_nil, or_false] at hm
          rcases hm with h | h <;> rw [h] <;> rfl
        rcases hseen : (u.packet k.copyFate k.appendFate k.packet).2 with _ | _ | _ | _ | _ <;>
          simp [owner, hmid, hseen, UplRes.seen] at hlock ⊢
      · left; exact hm

/-- C24, limit of the theorem: if the flash write of an opening packet fails, the packet is answered with an
error but the session stays open with the announced parameter length, so that later data is taken for the
parameters. Here the command parameters `first` are the payload of a middle packet. -/
theorem C24_failed_opening_witness :
    let ks : List SentPacket := [
      ⟨⟨.sign, 0, 1, List.replicate 255 1⟩, .fails [], .done⟩,
      ⟨⟨.sign, 1, 0, List.replicate 255 2⟩, .done, .done⟩]
    ∃ ref, ((uplAfter (List.replicate 8191 0) ks).packet .done .done ⟨.sign, 0x81, 0, [3]⟩).2
      = .complete 1 (List.replicate 255 2) [3] ref := by
  exact ⟨⟨true, 256, 1⟩, by decide +kernel⟩

end Tezos
