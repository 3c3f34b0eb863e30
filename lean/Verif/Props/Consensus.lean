import Verif.Sessions
import Verif.Props.Watermarks
/-
C13 to C15: what is checked before a consensus message is signed, and that a good one is signed.
-/
set_option linter.unusedSimpArgs false
namespace Tezos
open Spec (Item consensusItem isConsensusMagic role uploadCapacity)

/-! ### C13 -/

/-- `m` has the shape its first byte announces and the watermark `w` repeats the level and round it contains, read at
the offsets of the protocol (see Spec/Consensus.lean). -/
inductive Announced (m : Bytes) : WaterMark → Prop where
  /-- An Emmy block: fitness of version 0 or 1. -/
  | emmyBlock (h0 : m[0]? = some 0x01) (hl : 87 + beDec (slice m 83 4) ≤ m.length) (hf : 5 ≤ beDec (slice m 83 4))
      (hv : m[91]? = some 0 ∨ m[91]? = some 1) : Announced m (.emmy (u32OfBe (slice m 5 4)) false)
  /-- An Emmy endorsement: operation tag 0. -/
  | emmyEndorsement (h0 : m[0]? = some 0x02) (hl : 42 ≤ m.length) (hv : m[37]? = some 0) :
      Announced m (.emmy (u32OfBe (slice m 38 4)) true)
  /-- A Tenderbake block: fitness of version 2, ending in the round. -/
  | tenderbakeBlock (h0 : m[0]? = some 0x11) (hl : 87 + beDec (slice m 83 4) ≤ m.length)
      (hf : 9 ≤ beDec (slice m 83 4)) (hv : m[91]? = some 2) :
      Announced m (.tenderbake (u32OfBe (slice m 5 4)) false
        (u32OfBe (slice m (87 + beDec (slice m 83 4) - 4) 4)) false)
  /-- A Tenderbake preendorsement: operation tag 20. -/
  | preendorsement (h0 : m[0]? = some 0x12) (hl : 80 ≤ m.length) (hv : m[37]? = some 20) :
      Announced m (.tenderbake (u32OfBe (slice m 40 4)) false (u32OfBe (slice m 44 4)) true)
  /-- A Tenderbake endorsement: operation tag 21. -/
  | endorsement (h0 : m[0]? = some 0x13) (hl : 80 ≤ m.length) (hv : m[37]? = some 21) :
      Announced m (.tenderbake (u32OfBe (slice m 40 4)) true (u32OfBe (slice m 44 4)) true)

theorem Announced.of_item {m : Bytes} {it : Item} (h : consensusItem m = some it) :
    Announced m (WaterMark.ofItem it) := by
  unfold consensusItem at h
  split at h
  · cases h
  · rename_i b hb
    have e : ∀ o, UInt32.ofNat (Spec.u32At m o) = u32OfBe (slice m o 4) := fun _ => rfl
    split at h
    · subst b
      split at h
      · rename_i hc
        cases h
        simpa [WaterMark.ofItem, e] using Announced.emmyBlock hb hc.2.2.1 hc.2.1 hc.2.2.2
      · cases h
    · split at h
      · subst b
        split at h
        · rename_i hc
          cases h
          simpa [WaterMark.ofItem, Spec.u32At, u32OfBe] using Announced.tenderbakeBlock hb hc.2.2.1 hc.2.1 hc.2.2.2
        · cases h
      · split at h
        · subst b
          split at h
          · rename_i hc
            cases h
            simpa [WaterMark.ofItem, e] using Announced.emmyEndorsement hb hc.1 hc.2
          · cases h
        · split at h
          · subst b
            split at h
            · rename_i hc
              cases h
              simpa [WaterMark.ofItem, e] using Announced.preendorsement hb hc.1 hc.2
            · cases h
          · split at h
            · subst b
              split at h
              · rename_i hc
                cases h
                simpa [WaterMark.ofItem, e] using Announced.endorsement hb hc.1 hc.2
              · cases h
            · cases h

/-- C13: along every history, a message signed without a review has the shape its first byte announces, and the
watermark in the record afterwards, and after a restart, repeats the kind, level and round found in the message at the
offsets of the protocol. -/
theorem C13_announced_kind (cfg : Config) (new : NewDevice) (es : List (Env × Event))
    (hes : ∀ e ∈ es, e.1.mainF.Sound) (hlen : es.length < 2 ^ 64) (a c : List Moment) (m : Moment)
    (h : (Dev.factory new).trace cfg es = a ++ m :: c) (x : SigRec) (hx : m.out.sig = some x)
    (hc : isConsensusMagic x.msg = true) :
    ∃ b w, (m.next cfg).main.read = .ok b ∧ (m.next cfg).relaunch.main.read = .ok b ∧ WaterMark.decode b = w ∧
      Announced x.msg w := by
  obtain ⟨ea, eb, rfl, hla, rfl, hst, ho, _⟩ := Dev.trace_split h
  simp only [List.length_append, List.length_cons] at hlen
  have hok : m.st.Ok := by rw [hst]; exact (Dev.Ok.factory new).run
  obtain ⟨cell, hcell⟩ := Dev.run_main (cfg := cfg) (s := Dev.factory new) (es := ea) (n := 0)
    (Dev.Ok.factory new) (Store.Holds.fresh (by omega)) (fun e he => hes e (by simp [he])) (by omega)
  rw [← hst, Nat.zero_add] at hcell
  rw [ho] at hx
  obtain ⟨b, it, _, hi, _, _, hd, hm⟩ := consensus_moment hok hcell (hes (m.env, m.ev) (by simp)) (by omega) hx hc
  exact ⟨_, _, hm.read, hm.relaunch.read, WaterMark.decode_encode _, Announced.of_item hi⟩

/-- C13: the five kinds are disjoint: a message has at most one of the shapes, and the watermark is determined by it. -/
theorem C13_one_kind {m : Bytes} {w w' : WaterMark} (h : Announced m w) (h' : Announced m w') : w = w' := by
  cases h <;> cases h' <;> first | rfl | simp_all

/-! ### C14 -/

theorem Dev.withKey_ok {s : Dev} {k : PathAndCurve} (h : s.storedKey = some k) (e e' : ApduError)
    (f : PathAndCurve → Res) : s.withKey e e' f = f k := by
  unfold Dev.storedKey at h
  unfold Dev.withKey Dev.withRead
  cases hr : s.key.read with
  | err x => rw [hr] at h; cases h
  | panic => rw [hr] at h; cases h
  | ok b =>
    rw [hr] at h
    simp only at h ⊢
    cases hb : PathAndCurve.tryFromBytes b with
    | error x => rw [hb] at h; cases h
    | ok o =>
      rw [hb] at h
      simp only at h
      subst h
      rfl

theorem Dev.withPath_ok {s : Dev} {n : Nat} {p2 : UInt8} {p : Bytes} {k : PathAndCurve}
    (hc : Curve.ofByte p2 = some k.curve) (hp : Path.read n p = .ok k.path) (f : PathAndCurve → Res) :
    s.withPath n p2 (some p) f = f k := by
  unfold Dev.withPath
  simp only [hc, hp]

theorem not_aborts {m : Bytes} {it : Item} (h : consensusItem m = some it) : ¬ blockAborts m ∨
    (m[0]? ≠ some 0x01 ∧ m[0]? ≠ some 0x11) := by
  unfold consensusItem at h
  split at h
  · cases h
  · rename_i b hb
    rw [hb]
    by_cases h1 : b = 0x01
    · left
      rw [if_pos h1] at h
      split at h
      · rename_i hc
        unfold blockAborts
        rintro ⟨_, _, _, _, hv⟩
        rw [hv] at hc
        simp at hc
      · cases h
    · by_cases h2 : b = 0x11
      · left
        rw [if_neg h1, if_pos h2] at h
        split at h
        · rename_i hc
          unfold blockAborts
          rintro ⟨_, hv, _⟩
          omega
        · cases h
      · right
        simp [h1, h2]

/-- On a well-formed consensus message for the authorized key, `baker_sign` takes the automatic decision. -/
theorem Dev.bakerSign_auto {env : Env} {h : Bool} {p2 : UInt8} {first data digest : Bytes} {ref : MemRef} {s : Dev}
    {k : PathAndCurve} {it : Item} (hc : Curve.ofByte p2 = some k.curve)
    (hp : Path.read bip32MaxLength first = .ok k.path) (hk : s.storedKey = some k)
    (hd : env.cr.blake2b 32 data = some digest) (hi : consensusItem data = some it) :
    s.bakerSign env h p2 first data ref = s.autoSign env h digest data (specDecide data) := by
  unfold Dev.bakerSign
  rw [Dev.withPath_ok hc hp, Dev.withKey_ok hk, if_neg (by simp)]
  simp only [hd]
  have hm := consensusItem_magic hi
  unfold isConsensusMagic at hm
  cases hb : data[0]? with
  | none => rw [hb] at hm; cases hm
  | some b =>
    rw [hb] at hm
    simp only [Bool.or_eq_true, decide_eq_true_eq] at hm
    obtain ⟨rem, rfl⟩ : ∃ rem, data = b :: rem := by
      cases data with
      | nil => cases hb
      | cons x xs => cases hb; exact ⟨xs, rfl⟩
    have hna := not_aborts hi
    simp only [List.getElem?_cons_zero, ne_eq, Option.some.injEq] at hna
    have blk : ∀ p, Preamble.parse (b :: rem) = .ok (rem, p) → (b = 0x01 ∨ b = 0x11) →
        (p = .block ∨ p = .tenderbakeBlock) → blockDecide p rem = specDecide (b :: rem) := by
      intro p hp hbb hpp
      funext hw
      rw [blockDecide_eq hp hpp, if_neg]
      rcases hna with hna | hna
      · exact hna
      · rcases hbb with rfl | rfl
        · exact absurd rfl hna.1
        · exact absurd rfl hna.2
    have edo : ∀ p, Preamble.parse (b :: rem) = .ok (rem, p) →
        (p = .endorsement ∨ p = .tenderbakePreendorsement ∨ p = .tenderbakeEndorsement) →
        endorsementDecide p rem = specDecide (b :: rem) := by
      intro p hp hpp
      funext hw
      exact endorsementDecide_eq hp hpp
    rcases hm with (((rfl | rfl) | rfl) | rfl) | rfl
    · have hpre : Preamble.parse (0x01 :: rem) = .ok (rem, .block) := rfl
      simp only [hpre, blk _ hpre (by simp) (by simp)]
    · have hpre : Preamble.parse (0x02 :: rem) = .ok (rem, .endorsement) := rfl
      simp only [hpre, edo _ hpre (by simp)]
    · have hpre : Preamble.parse (0x11 :: rem) = .ok (rem, .tenderbakeBlock) := rfl
      simp only [hpre, blk _ hpre (by simp) (by simp)]
    · have hpre : Preamble.parse (0x12 :: rem) = .ok (rem, .tenderbakePreendorsement) := rfl
      simp only [hpre, edo _ hpre (by simp)]
    · have hpre : Preamble.parse (0x13 :: rem) = .ok (rem, .tenderbakeEndorsement) := rfl
      simp only [hpre, edo _ hpre (by simp)]

/-- A record that can be read can be written. -/
theorem Store.write_of_read {st : Store} {b : Bytes} (h : st.read = .ok b) (p : Bytes) : (st.write .done p).2 = .ok := by
  unfold Store.read at h
  unfold Store.write
  cases hw : st.wear with
  | error e => rw [hw] at h; cases h
  | ok w =>
    rw [hw] at h
    simp only at h ⊢
    have hne : ¬ w.pages.length = 0 := by
      intro h0
      have : w.pages = [] := List.length_eq_zero_iff.mp h0
      simp [Wear.read, this] at h
    simp only [Wear.write, hne, if_false, Fate.forWear]

theorem Dev.autoSign_ok {env : Env} {h : Bool} {digest data b sig : Bytes} {s : Dev} {k : PathAndCurve} {it : Item}
    (hk : s.storedKey = some k) (hi : consensusItem data = some it) (hr : s.main.read = .ok b)
    (hl : it.level < 2 ^ 31) (hlt : Item.lt (WaterMark.decode b).item it) (hf : env.mainF = .done)
    (hs : env.cr.sign k.curve k.path digest = some sig) :
    (s.autoSign env h digest data (specDecide data)).out = .ok (sigReply h digest sig) ∧
    (s.autoSign env h digest data (specDecide data)).sig = some ⟨k.curve, k.path, digest, data, sig⟩ := by
  have hd : specDecide data (WaterMark.decode b) = .ok (WaterMark.ofItem it) := by
    unfold specDecide
    simp only [hi, hl, hlt, and_self, if_true]
  unfold Dev.autoSign Dev.withRead
  simp only [hr, hd]
  have hw : (s.writeMain env (WaterMark.ofItem it)).2 = .ok := by
    unfold Dev.writeMain
    simp only [hf]
    exact Store.write_of_read hr _
  have hk' : (s.writeMain env (WaterMark.ofItem it)).1.storedKey = some k := hk
  unfold Dev.afterWrite
  rw [hw]
  simp only [Dev.bakingSign]
  rw [Dev.withKey_ok hk']
  simp only [hs]
  exact ⟨trivial, trivial⟩

theorem Dev.run_append_out (cfg : Config) (s : Dev) (a b : List (Env × Event)) :
    (s.run cfg (a ++ b)).2 = (s.run cfg a).2 ++ ((s.run cfg a).1.run cfg b).2 := by
  induction a generalizing s with
  | nil => rfl
  | cons x xs ih =>
    simp only [List.cons_append, Dev.run, List.cons.injEq, true_and]
    exact ih _

theorem Chunks.full {ins : UInt8} {evs : List Event} {data : Bytes} (h : Chunks ins evs data) : ∀ e ∈ evs, e.Full := by
  induction h with
  | nil => intro e he; cases he
  | cons hr hc _ ih =>
    intro e he
    rcases List.mem_cons.mp he with rfl | he
    · exact hc.full
    · exact ih e he

theorem Uploading.full {ins p2 : UInt8} {key data : Bytes} {evs : List Event} (h : Uploading ins p2 key data evs) :
    ∀ e ∈ evs, e.Full := by
  obtain ⟨hr, hc, h⟩ := h
  intro e he
  rcases List.mem_cons.mp he with rfl | he
  · exact hc.full
  · exact h.full e he

theorem command_baking_sign {ins : UInt8} (h : ins ∈ ([0x04, 0x0F, 0xAF] : List UInt8)) :
    command .baking ins = some (.bakerSign (decide (ins ≠ 0x04))) ∧ familyOf .baking ins = some .baking := by
  simp only [List.mem_cons, List.not_mem_nil, or_false] at h
  rcases h with rfl | rfl | rfl <;> decide

/-- What a baker needs from the device to be answered: a running app, the key authorized, a readable watermark below
the message, and a message that fits the upload buffer. -/
structure Ready (s : Dev) (k : PathAndCurve) (data : Bytes) (it : Item) : Prop where
  running : s.running = true
  key : s.storedKey = some k
  item : consensusItem data = some it
  level : it.level < 2 ^ 31
  above : ∃ b, s.main.read = .ok b ∧ Item.lt (WaterMark.decode b).item it

/-- C14: from every reachable state in which the key is authorized and the watermark is below a well-formed consensus
message, uploading that message with one of the three baking instructions, cut into packets in any way, is acknowledged
packet by packet and answered with the signature, whatever upload was going on before. -/
theorem C14_fresh_message_is_signed (cfg : Config) (hcfg : cfg.build = .baking) (new : NewDevice)
    (hu : new.upload.length = uploadCapacity) (es : List (Env × Event)) (hes : ∀ e ∈ es, Good e.1 e.2) (s : Dev)
    (hs : s = ((Dev.factory new).run cfg es).1) (ins : UInt8) (hins : ins ∈ [0x04, 0x0F, 0xAF]) (p1 p2 q2 : UInt8)
    (k : PathAndCurve) (key d1 d2 : Bytes) (it : Item) (hready : Ready s k (d1 ++ d2) it)
    (hc : Curve.ofByte p2 = some k.curve) (hk : key = k.path.serialize)
    (hn : 1 ≤ k.path.length ∧ k.path.length ≤ 10)
    (hfit : 1 + key.length + (d1 ++ d2).length ≤ 8191) (us : List (Env × Event)) (env : Env) (ev : Event)
    (hg : ∀ e ∈ us, e.1.copyF = .done ∧ e.1.appendF = .done) (hge : env.copyF = .done ∧ env.appendF = .done)
    (hup : Uploading ins p2 key d1 (us.map Prod.snd)) (hev : Carries ev ins p1 q2 d2) (hr : role p1 = some .closing)
    (digest sig : Bytes) (hd : env.cr.blake2b 32 (d1 ++ d2) = some digest)
    (hsig : env.cr.sign k.curve k.path digest = some sig) (hf : env.mainF = .done) :
    (s.run cfg (us ++ [(env, ev)])).2 = (us.map fun _ => ⟨some [0x90, 0x00], none, none⟩) ++
      [⟨some ((if ins = 0x04 then [] else digest) ++ sig ++ [0x90, 0x00]),
        some ⟨k.curve, k.path, digest, d1 ++ d2, sig⟩, none⟩] := by
  subst hs
  obtain ⟨hrun, hkey, hit, hlv, b, hread, hlt⟩ := hready
  obtain ⟨hcmd, hfam⟩ := command_baking_sign hins
  rw [← hcfg] at hcmd hfam
  have hinv := factory_session (cfg := cfg) hu hes
  simp only [List.length_append] at hfit
  have hgood : ∀ e ∈ us, Good e.1 e.2 := by
    intro e he
    obtain ⟨h1, h2⟩ := hg e he
    exact ⟨h1, h2, hup.full _ (List.mem_map_of_mem he)⟩
  obtain ⟨u, hui, hrun'⟩ := hup.run hfam hrun hinv (by unfold uploadCapacity; omega) hgood
  rw [Dev.run_append_out, hrun']
  congr 1
  obtain ⟨buf, hrec, h2, h3, hpl⟩ := hev.received (s := { ((Dev.factory new).run cfg es).1 with upl := u }) hrun hcmd
  have hfeed : (Spec.feed (some ⟨Accessor.baking, p2, key, d1⟩) ⟨Accessor.baking, p1, q2, d2⟩).2 = some (p2, key, d1 ++ d2) := by
    simp only [Spec.feed, hr, true_and]
    rw [if_pos (by unfold uploadCapacity; omega)]
  obtain ⟨u', ref, hcomp⟩ := Completes.of_feed (env := env)
    (s := { ((Dev.factory new).run cfg es).1 with upl := u }) hui hev.length hge.1 hge.2 hfeed
  simp only [Dev.run, List.cons.injEq, and_true]
  rw [hrec.step, h2, h3, hpl]
  simp only [Dev.exec, Dev.cmdUpload, hcomp.eq]
  have hpath : Path.read bip32MaxLength key = .ok k.path := by
    rw [Path.read_ok, hk]
    exact ⟨hn.1, hn.2, by omega, rfl⟩
  rw [Dev.bakerSign_auto (s := { ((Dev.factory new).run cfg es).1 with upl := u' }) (k := k) (digest := digest)
    (it := it) hc hpath hkey hd hit]
  obtain ⟨hout, hsg⟩ := Dev.autoSign_ok (env := env) (h := decide (ins ≠ 0x04)) (digest := digest)
    (s := { ((Dev.factory new).run cfg es).1 with upl := u' }) (sig := sig) hkey hit hread hlv hlt hf hsig
  simp only [Res.deliver, hout, hsg]
  by_cases h4 : ins = 0x04
  · simp [sigReply, statusWord, h4]
    decide
  · simp [sigReply, statusWord, h4]
    decide

/-! ### C15 -/

section
variable {b : UInt8} {c1 c2 rest : Bytes} (h1 : c1.length = 4) (h2 : c2.length = 4)
include h1 h2

theorem drop_chain {n : Nat} (hn : 5 ≤ n) : (b :: c1 ++ rest).drop n = (b :: c2 ++ rest).drop n := by
  obtain ⟨k, rfl⟩ : ∃ k, n = k + 5 := ⟨n - 5, by omega⟩
  have e : ∀ c : Bytes, c.length = 4 → (b :: c ++ rest).drop (k + 5) = rest.drop k := by
    intro c hc
    have hd : (b :: c ++ rest).drop 5 = rest := List.drop_left' (by simp [hc])
    rw [Nat.add_comm, ← List.drop_drop, hd]
  rw [e c1 h1, e c2 h2]

theorem get_chain {n : Nat} (hn : 5 ≤ n) : (b :: c1 ++ rest)[n]? = (b :: c2 ++ rest)[n]? := by
  have := congrArg List.head? (drop_chain h1 h2 (b := b) (rest := rest) hn)
  simpa [List.head?_drop] using this

theorem slice_chain {n : Nat} (hn : 5 ≤ n) (k : Nat) : slice (b :: c1 ++ rest) n k = slice (b :: c2 ++ rest) n k := by
  unfold slice
  rw [drop_chain h1 h2 hn]

theorem u32At_chain {n : Nat} (hn : 5 ≤ n) : Spec.u32At (b :: c1 ++ rest) n = Spec.u32At (b :: c2 ++ rest) n := by
  unfold Spec.u32At
  rw [slice_chain h1 h2 hn]

theorem length_chain : (b :: c1 ++ rest).length = (b :: c2 ++ rest).length := by simp [h1, h2]

/-- What a consensus message is about does not depend on its chain id. -/
theorem consensusItem_chain : consensusItem (b :: c1 ++ rest) = consensusItem (b :: c2 ++ rest) := by
  have g (n : Nat) (hn : 5 ≤ n := by omega) := get_chain h1 h2 (b := b) (rest := rest) (n := n) hn
  have u (n : Nat) (hn : 5 ≤ n := by omega) := u32At_chain h1 h2 (b := b) (rest := rest) (n := n) hn
  unfold consensusItem
  rw [length_chain h1 h2, u 83, g 91, u 5, g 37, u 38, u 40, u 44, u (87 + Spec.u32At (b :: c2 ++ rest) 83 - 4)]
  rfl

theorem specDecide_chain (hw : WaterMark) : specDecide (b :: c1 ++ rest) hw = specDecide (b :: c2 ++ rest) hw := by
  unfold specDecide
  rw [consensusItem_chain h1 h2]

theorem blockAborts_chain : blockAborts (b :: c1 ++ rest) ↔ blockAborts (b :: c2 ++ rest) := by
  have g (n : Nat) (hn : 5 ≤ n := by omega) := get_chain h1 h2 (b := b) (rest := rest) (n := n) hn
  have u (n : Nat) (hn : 5 ≤ n := by omega) := u32At_chain h1 h2 (b := b) (rest := rest) (n := n) hn
  have s (n k : Nat) (hn : 5 ≤ n := by omega) := slice_chain h1 h2 (b := b) (rest := rest) (n := n) hn k
  unfold blockAborts
  rw [length_chain h1 h2]
  simp only [u 83, s 83 4, g 91]

end

/-- C15 is false of this code: what is decided about a block or an endorsement does not depend on the chain id, the
first four bytes after the preamble. -/
theorem C15_chain_id_is_ignored (c1 c2 rest : Bytes) (h1 : c1.length = 4) (h2 : c2.length = 4) (hw : WaterMark) :
    (∀ p, p = .block ∨ p = .tenderbakeBlock → blockDecide p (c1 ++ rest) hw = blockDecide p (c2 ++ rest) hw) ∧
    ∀ p, p = .endorsement ∨ p = .tenderbakePreendorsement ∨ p = .tenderbakeEndorsement →
      endorsementDecide p (c1 ++ rest) hw = endorsementDecide p (c2 ++ rest) hw := by
  have blk : ∀ (b : UInt8) (p : Preamble), (∀ rem, Preamble.parse (b :: rem) = .ok (rem, p)) →
      p = .block ∨ p = .tenderbakeBlock → blockDecide p (c1 ++ rest) hw = blockDecide p (c2 ++ rest) hw := by
    intro b p hb hp
    have e1 : Preamble.parse (b :: c1 ++ rest) = .ok (c1 ++ rest, p) := hb _
    have e2 : Preamble.parse (b :: c2 ++ rest) = .ok (c2 ++ rest, p) := hb _
    rw [blockDecide_eq e1 hp, blockDecide_eq e2 hp, specDecide_chain h1 h2]
    simp only [blockAborts_chain h1 h2]
  have edo : ∀ (b : UInt8) (p : Preamble), (∀ rem, Preamble.parse (b :: rem) = .ok (rem, p)) →
      p = .endorsement ∨ p = .tenderbakePreendorsement ∨ p = .tenderbakeEndorsement →
      endorsementDecide p (c1 ++ rest) hw = endorsementDecide p (c2 ++ rest) hw := by
    intro b p hb hp
    have e1 : Preamble.parse (b :: c1 ++ rest) = .ok (c1 ++ rest, p) := hb _
    have e2 : Preamble.parse (b :: c2 ++ rest) = .ok (c2 ++ rest, p) := hb _
    rw [endorsementDecide_eq e1 hp, endorsementDecide_eq e2 hp, specDecide_chain h1 h2]
  constructor
  · rintro p (rfl | rfl)
    · exact blk 0x01 _ (fun _ => rfl) (by simp)
    · exact blk 0x11 _ (fun _ => rfl) (by simp)
  · rintro p (rfl | rfl | rfl)
    · exact edo 0x02 _ (fun _ => rfl) (by simp)
    · exact edo 0x12 _ (fun _ => rfl) (by simp)
    · exact edo 0x13 _ (fun _ => rfl) (by simp)

/-- C15, what holds instead: because all chains share one watermark, of two messages that differ in the chain id only,
at most one is signed. The missing part is that a message of a chain other than the configured one is refused. -/
theorem C15_shared_watermark_partial (cfg : Config) (new : NewDevice) (es : List (Env × Event)) (m1 m2 : Moment)
    (hb : Between cfg new es m1 m2) (x1 x2 : SigRec) (h1 : m1.out.sig = some x1) (h2 : m2.out.sig = some x2)
    (b : UInt8) (c1 c2 rest : Bytes) (hc1 : c1.length = 4) (hc2 : c2.length = 4) (e1 : x1.msg = b :: c1 ++ rest)
    (e2 : x2.msg = b :: c2 ++ rest) (hm : isConsensusMagic x1.msg = true) : False := by
  have hm2 : isConsensusMagic x2.msg = true := by
    rw [e1] at hm
    rw [e2]
    exact hm
  obtain ⟨i1, i2, g1, g2, hlt⟩ := C01_consensus_signatures_increase cfg new es m1 m2 hb x1 x2 h1 h2 hm hm2
  rw [e1, consensusItem_chain hc1 hc2, ← e2, g2] at g1
  cases g1
  exact Item.lt_irrefl _ hlt

open Demo in
set_option maxRecDepth 100000 in
/-- C15 is false of this code, as a history: the app is set up for mainnet, and a block of another chain is signed. -/
theorem C15_other_chain_is_signed : ∃ (es : List (Env × Event)) (m : Moment) (x : SigRec) (c : Bytes) (it : Item),
    (∀ e ∈ es, e.1 = fine) ∧ m ∈ (Dev.factory ⟨.small, []⟩).trace bakingApp es ∧ m.st.chain.read = .ok c ∧
    chainIdDecode c = u32OfBe mainnet ∧ m.out.sig = some x ∧ consensusItem x.msg = some it ∧
    slice x.msg 1 4 ≠ mainnet := by
  have h : ((fresh.trace bakingApp (setup 5 ++ sign (emmyBlock 7 [1, 2, 3, 4])))[9]?.map fun m =>
      ((match m.st.chain.read with | .ok c => some (chainIdDecode c) | _ => none) == some (u32OfBe mainnet) &&
        decide ((m.out.sig.map fun x => (consensusItem x.msg, slice x.msg 1 4)) =
          some (some ⟨0, 7, 0, 0⟩, [1, 2, 3, 4])))) = some true := by decide +kernel
  obtain ⟨m, hm, h⟩ := Option.map_eq_some_iff.mp h
  simp only [Bool.and_eq_true, beq_iff_eq, decide_eq_true_eq] at h
  obtain ⟨hc, hx⟩ := h
  obtain ⟨x, hx, he⟩ := Option.map_eq_some_iff.mp hx
  simp only [Prod.mk.injEq] at he
  split at hc
  · rename_i c hr
    exact ⟨_, m, x, c, _, by simp [setup, sign, ok], List.mem_of_getElem? hm, hr, Option.some.inj hc, hx, he.1,
      by rw [he.2]; decide⟩
  · cases hc

/-! ### Cases -/

namespace Demo

/-- `apdu` is an APDU. -/
theorem apdu_carries (ins p1 p2 : UInt8) (data : Bytes) (h : data.length ≤ 255) :
    Carries (apdu ins p1 p2 data) ins p1 p2 data := by
  refine ⟨_, rfl, ?_⟩
  rw [List.length_replicate]
  omega

set_option maxRecDepth 100000 in
/-- C13 on `history`: the watermark after each of the five kinds. -/
example : ([9, 14, 16, 18, 20].map fun i => (fresh.trace bakingApp history)[i]?.map fun m =>
      (m.out.sig.isSome, match (m.next bakingApp).main.read with
        | .ok b => some (WaterMark.decode b)
        | _ => none)) =
    [some (true, some (.emmy 7 false)), some (true, some (.emmy 7 true)),
      some (true, some (.tenderbake 3 false 1 false)), some (true, some (.tenderbake 3 false 1 true)),
      some (true, some (.tenderbake 3 true 1 true))] := by
  decide +kernel

/-- The key of `keyPath`. -/
def key : PathAndCurve := ⟨.ed25519, [0x8000002c, 0x800006c1]⟩

set_option maxRecDepth 100000 in
/-- C14 after a setup and the start of another upload: a Tenderbake endorsement cut into three packets. -/
example :
    let s := ((Dev.factory ⟨.small, List.replicate 8191 0⟩).run bakingApp (setup 5 ++ ok [apdu 0x12 0 0 keyPath])).1
    let m := tbEndorsement 9 2
    Ready s key (m.take 50 ++ m.drop 50) ⟨1, 9, 2, 2⟩ ∧
    Uploading 0x0F 0 keyPath (m.take 50)
      [apdu 0x0F 0 0 keyPath, apdu 0x0F 1 0 (m.take 20), apdu 0x0F 1 0 ((m.take 50).drop 20)] ∧
    Carries (apdu 0x0F 0x81 0 (m.drop 50)) 0x0F 0x81 0 (m.drop 50) ∧ keyPath = key.path.serialize := by
  refine ⟨⟨by decide +kernel, by decide +kernel, by decide +kernel, by decide, ?_⟩, ?_, ?_, by decide⟩
  · refine ⟨(WaterMark.reset 5 false).encode, by decide +kernel, by decide +kernel⟩
  · refine ⟨by decide, apdu_carries _ _ _ _ (by decide), ?_⟩
    have e : (tbEndorsement 9 2).take 50 = (tbEndorsement 9 2).take 20 ++ (((tbEndorsement 9 2).take 50).drop 20 ++ []) := by
      decide
    rw [e]
    exact .cons (by decide) (apdu_carries _ _ _ _ (by decide)) (.cons (by decide) (apdu_carries _ _ _ _ (by decide)) .nil)
  · exact apdu_carries _ _ _ _ (by decide)

end Demo

end Tezos
