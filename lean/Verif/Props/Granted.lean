import Verif.Props.Whole
import Verif.Props.Queries
import Verif.Props.Crash
/-
C85: requests that need the approval of the user, other than for a signature, are granted when the user approves.
-/
set_option linter.unusedSimpArgs false
set_option linter.unusedVariables false
namespace Tezos
open Spec

/-! ### Records that take writes -/

/-- The page is written completely or not at all. -/
def Fate.Atomic : Fate → Prop
  | .done | .powerLoss .unchanged | .powerLoss .complete => True
  | _ => False

instance : (f : Fate) → Decidable f.Atomic
  | .done => isTrue trivial
  | .powerLoss .unchanged => isTrue trivial
  | .powerLoss .complete => isTrue trivial
  | .powerLoss (.other _) => isFalse id
  | .fails _ => isFalse id

theorem Fate.Atomic.sound {f : Fate} (h : f.Atomic) : f.Sound := by
  cases f with
  | done => trivial
  | fails => exact h
  | powerLoss l => cases l <;> trivial

theorem Fate.Atomic.detected {f : Fate} (h : f.Atomic) : f.Detected := by
  cases f with
  | done => trivial
  | fails => exact h.elim
  | powerLoss l => cases l <;> trivial

theorem Fate.Atomic.whole {f : Fate} (h : f.Atomic) : f.Whole := by
  cases f with
  | done => trivial
  | fails => exact h.elim
  | powerLoss l => cases l <;> trivial

/-- Every write to a record is made completely or not at all (the power may fail before or after it), uploads are
written or the power fails, hashes have the length asked for, and the exchange buffer has its size. -/
structure Kind (env : Env) (ev : Event) : Prop where
  sized : env.cr.Sized
  main : env.mainF.Atomic
  test : env.testF.Atomic
  chain : env.chainF.Atomic
  key : env.keyF.Atomic
  copy : ∀ j, env.copyF ≠ .fails j
  append : ∀ j, env.appendF ≠ .fails j
  full : ev.Full

theorem Kind.firm {env : Env} {ev : Event} (h : Kind env ev) : Firm env ev :=
  ⟨h.sized, h.main.whole, h.test.whole, h.chain.whole, h.key.whole, h.copy, h.append, h.full⟩

/-- A record that passes its checks and takes every write. -/
theorem Store.Firm.takes {st : Store} (h : st.Firm) (b : Bytes) : (st.write .done b).2 = .ok := by
  obtain ⟨i, hw⟩ := h.wear
  unfold Store.write
  simp only [hw, Wear.write]
  rw [if_neg h.pos]
  rfl

/-- A state that such a history leads to. -/
structure Dev.Takes (s : Dev) (n : Nat) : Prop where
  solid : s.Solid
  ok : s.Ok
  key : ∃ c, s.key.Holds1 n c
  mark : ∀ r, ∃ c, (s.mark r).Holds n c

theorem Dev.Takes.of_history {cfg : Config} {new : NewDevice} (hu : new.upload.length = uploadCapacity)
    {es : List (Env × Event)} (hes : ∀ e ∈ es, Kind e.1 e.2) (hlen : es.length < 2 ^ 64) :
    ((Dev.factory new).run cfg es).1.Takes es.length where
  solid := ((Dev.Sturdy.factory hu).run (cfg := cfg) fun e he => (hes e he).firm).solid
  ok := (Dev.Ok.factory new).run
  key := by
    obtain ⟨c, h, -⟩ := history_key (cfg := cfg) (new := new) (fun e he => (hes e he).key.detected) hlen
    exact ⟨c, h⟩
  mark r := by
    obtain ⟨c, h, -⟩ := history_mark (cfg := cfg) (new := new) r (fun e he => by
      cases r
      · exact (hes e he).main.sound
      · exact (hes e he).test.sound
      · exact (hes e he).chain.sound) hlen
    exact ⟨c, h⟩

/-- What the key record holds after a write. -/
theorem Dev.key_written {s s' : Dev} {n : Nat} {c : Cell} (h : s.key.Holds1 n c) (hn : n + 1 < 2 ^ 64)
    {o : Option PathAndCurve} (hw : (s.key.write .done (keyBytes o)).2 = .ok)
    (ho : ∀ k, o = some k → 1 ≤ k.path.length ∧ k.path.length ≤ 10)
    (hs : s'.key = (s.key.write .done (keyBytes o)).1) : s'.storedKey = o ∧ s'.relaunch.storedKey = o := by
  obtain ⟨c', h1, h2⟩ := h.write (f := .done) (b := keyBytes o) hn (keyBytes_length fun k hk => (ho k hk).2) trivial
  obtain rfl : c' = .val (keyBytes o) := by
    rcases h2 with ⟨-, h2⟩ | ⟨h2, -⟩
    · exact h2
    · exact absurd hw h2
  have hkey : (Cell.val (keyBytes o)).key = o := by
    cases o with
    | none => rfl
    | some k => simp only [Cell.key, keyBytes, PathAndCurve.tryFromBytes_encode (ho k rfl).1 (ho k rfl).2]
  rw [← hs] at h1
  exact ⟨(Store.Holds1.storedKey (s := s') h1).trans hkey,
    (Store.Holds1.storedKey (s := s'.relaunch) h1.relaunch).trans hkey⟩

/-- What a watermark record holds after a write. -/
theorem Store.Holds.written {st st' : Store} {n : Nat} {c : Cell} (h : st.Holds n c) (hn : n + 1 < 2 ^ 64) {b : Bytes}
    (hb : b.length = slotSize) (hw : (st.write .done b).2 = .ok) (hs : st' = (st.write .done b).1) :
    st'.read = .ok b ∧ st'.relaunch.read = .ok b := by
  obtain ⟨c', h1, h2, -⟩ := h.write (f := .done) (b := b) hn hb trivial
  obtain rfl : c' = .val b := by
    rcases h2 with ⟨-, h2⟩ | ⟨h2, -⟩
    · exact h2
    · exact absurd hw h2
  rw [← hs] at h1
  exact ⟨h1.read_eq, h1.relaunch.read_eq⟩

/-! ### From the request to the approval -/

/-- The user reads these screens, one after the other, with the right button, after the computer has sent the request
`ev`, and then presses both buttons; this is answered with the data and 0x9000. -/
structure GrantedAfterReading (cfg : Config) (s : Dev) (env : Env) (ev : Event) (env' : Env) (screens : List Screen)
    (data : Bytes) : Prop where
  seen : ((s.step cfg env ev).1.trace cfg (List.replicate screens.length (env', .right))).map
    (fun m => m.st.zui.screen) = screens
  replies : (s.run cfg ((env, ev) :: readAndApprove env' screens)).2 =
    .quiet :: (List.replicate screens.length .quiet ++ [⟨some (data ++ [0x90, 0x00]), none, none⟩])

/-- The state after that. -/
def Dev.afterReading (cfg : Config) (s : Dev) (env : Env) (ev : Event) (env' : Env) (screens : List Screen) : Dev :=
  (s.run cfg ((env, ev) :: readAndApprove env' screens)).1

theorem View.NoSignature.accept_sig {v : View} (h : v.NoSignature) {env : Env} {s : Dev} {data : Bytes}
    (ho : (v.accept env s).out = .ok data) : (v.accept env s).sig = none := by
  have haw : ∀ (s : Dev) (r : WriteRes) (e : ApduError) (k : Dev → Res), (∀ s, (k s).sig = none) →
      (s.afterWrite r e k).sig = none := by
    intro s r e k hk
    cases r <;> first | exact hk _ | rfl
  cases v with
  | sign => exact h.elim
  | bakingSign => exact h.elim
  | addr a key w =>
    simp only [View.accept]
    split
    · split <;> rfl
    · rfl
  | authorize k a =>
    simp only [View.accept]
    split
    · rfl
    · exact haw _ _ _ _ fun _ => rfl
  | deauthorize a =>
    simp only [View.accept]
    exact haw _ _ _ _ fun _ => rfl
  | query => rfl
  | setup =>
    simp only [View.accept]
    split
    · rfl
    · exact haw _ _ _ _ fun _ => haw _ _ _ _ fun _ => haw _ _ _ _ fun _ => haw _ _ _ _ fun _ => rfl

/-- A request with a review all items of which can be displayed. -/
theorem Dev.granted {cfg : Config} {env : Env} {s : Dev} {ev : Event} {ins p1 p2 : UInt8} {data : Bytes} {c : Cmd}
    {v : View} (hw : env.cr.Works) (hrun : s.running = true) (hcar : Carries ev ins p1 p2 data)
    (hc : command cfg.build ins = some c) (ho : Opens env s p1 p2 (some data) c v s.path s.upl) (hv : v.NoSignature)
    (hexec : s.exec cfg env c p1 p2 (some data) = s.show env v) {items : List (String × Shown)}
    (hpres : ∀ mem, Presents env.cr (v.viewer env.cr mem) items) (hplain : ∀ e ∈ items, Plain e)
    (hread : ∀ e ∈ items, e.2.Readable) (hpos : 0 < items.length) (hlt : items.length < 256) (env' : Env)
    (hcr : env'.cr = env.cr) :
    ∃ screens s', (∀ e ∈ items, UserRead env.cr.hashes screens e) ∧ SameFlash s s' ∧
      ∀ d, (v.accept env' s').out = .ok d → GrantedAfterReading cfg s env ev env' screens d ∧
        SameFlash (v.accept env' s').st (s.afterReading cfg env ev env' screens) := by
  obtain ⟨buf, hrec, h1, h2, h3⟩ := hcar.received hrun hc
  have hto : (UInt8.ofNat items.length).toNat = items.length := by simp only [UInt8.toNat_ofNat']; omega
  have hi : ∀ mem, ∀ i < (UInt8.ofNat items.length).toNat,
      ∃ f, (v.viewer env.cr mem).item (UInt8.ofNat i) = .ok f := by
    intro mem i hi
    rw [hto] at hi
    exact (((hpres mem).item i _ (List.getElem?_eq_getElem hi)).shown hw).mpr (hread _ (List.getElem_mem hi))
  rw [← h1, ← h2, ← h3] at ho hexec
  have hsame : ∀ t : Dev, t.upl = s.upl → { t with upl := s.upl } = t := by
    intro t h
    cases t
    cases h
    rfl
  obtain ⟨hopen, hon, z, hstep⟩ := Dev.brings (u' := s.upl) hw.sized hrec ho
    (by rw [hexec]; rfl) (by rw [hexec]; exact (hsame _ (s.show_upl env v)).symm) (.inl rfl) (hpres _).count
    (by rw [hto]; exact hpos) (hi _)
  obtain ⟨fs, z', f1, f2, f3, f4, f5⟩ := (hopen .quiet).read (m := ⟨s, env, ev, .quiet⟩) hw.sized hon hcr
    (w := v.viewer env'.cr (Moment.next cfg ⟨s, env, ev, .quiet⟩).upl.buf) rfl (by rw [hcr]; exact (hpres _).count)
    (by rw [hto]; exact hpos) (by rw [hcr]; exact hi _)
    (C75_others_end v hv _ _ _ (by rw [hcr]; exact (hpres _).count))
  have hnext : Moment.next cfg ⟨s, env, ev, .quiet⟩ = (s.step cfg env ev).1 := rfl
  rw [hnext] at f3 f4 f5 f2
  rw [hto] at f1
  refine ⟨readingScreens s.zui.display fs, ({ (s.step cfg env ev).1 with zui := z' } : Dev).idle,
    read_fields f1 f2 hplain (by rw [hcr]; exact (hpres _).item), ?_, fun d hd => ⟨⟨f4, ?_⟩, ?_⟩⟩
  · rw [hstep]
    exact ⟨rfl, rfl, rfl, rfl⟩
  · simp only [Dev.run]
    rw [hstep] at f3 f5 hd ⊢
    rw [readAndApprove, Dev.run_append_out, f3]
    simp only [Dev.run, f5.answer env' hd, hv.accept_sig hd]
  · unfold Dev.afterReading
    simp only [Dev.run]
    rw [readAndApprove, Dev.run_append, f3]
    exact (f5.step (cfg := cfg) env').1

/-! ### Addresses -/

theorem IsAccount.unique {cr : Crypto} {k : PathAndCurve} {key key' : Bytes} {acc acc' : Account}
    (h : IsAccount cr k key acc) (h' : IsAccount cr k key' acc') : key = key' ∧ acc = acc' := by
  obtain ⟨h1, h2, h3⟩ := h
  obtain ⟨h1', h2', h3'⟩ := h'
  rw [h1] at h1'
  cases h1'
  rw [h3] at h3'
  obtain ⟨kind, hash⟩ := acc
  obtain ⟨kind', hash'⟩ := acc'
  cases h2
  cases h2'
  cases h3'
  exact ⟨rfl, rfl⟩

/-- The address of a key exists, and its text says so. -/
theorem IsAccount.address {cr : Crypto} (hw : cr.Works) {k : PathAndCurve} {key : Bytes} {acc : Account}
    (h : IsAccount cr k key acc) :
    ∃ a, Addr.ofKey cr k.curve key = some a ∧ newAddr cr k.curve k.path = some a ∧
      ∀ title, Renders cr (do return ⟨ascii title, ← a.base58⟩) (title, .account acc) := by
  obtain ⟨a, ha⟩ : ∃ a, Addr.ofKey cr k.curve key = some a := by
    obtain ⟨d1, h1⟩ := Option.isSome_iff_exists.mp (hw.sha256 (addressPrefix k.curve ++ acc.hash))
    obtain ⟨d2, h2⟩ := Option.isSome_iff_exists.mp (hw.sha256 d1)
    exact IsAddressOf.computed (t := Tezos.base58 (addressPrefix k.curve ++ acc.hash ++ d2.take 4))
      ⟨acc.hash, h.hash, d1, d2, h1, h2, base58_isBase58 _⟩
  have hn : newAddr cr k.curve k.path = some a := by
    simp only [newAddr, h.derived, Option.bind_eq_bind, Option.bind_some, ha]
  obtain ⟨key', acc', h', hr⟩ := newAddr_account hw.sized hn
  obtain ⟨rfl, rfl⟩ := h.unique h'
  exact ⟨a, ha, hn, hr⟩

theorem le_one_of_ne {p1 : UInt8} (h : p1 ≠ 0) : 1 ≤ p1 := by
  rw [UInt8.le_iff_toNat_le]
  have : p1.toNat ≠ 0 := fun e => h (UInt8.toNat_inj.mp e)
  have h1 : (1 : UInt8).toNat = 1 := rfl
  omega

/-! ### C85 -/

/-- C85, addresses: a request to confirm the address of a key shows it, and the approval is answered with the public key
and this address. -/
theorem C85_address (cfg : Config) (s : Dev) (hrun : s.running = true) (env : Env) (hw : env.cr.Works) (ev : Event)
    (ins p1 p2 : UInt8) (hins : ins = 0x03 ∨ (ins = 0x11 ∧ p1 ≠ 0)) (data : Bytes) (hcar : Carries ev ins p1 p2 data)
    (k : PathAndCurve) (hk : Names 6 p2 data k) (key : Bytes) (acc : Account) (hacc : IsAccount env.cr k key acc)
    (env' : Env) (hcr : env'.cr = env.cr) :
    ∃ screens t, UserRead env.cr.hashes screens ("Address", .account acc) ∧ IsAddressOf env.cr k.curve key t ∧
      GrantedAfterReading cfg s env ev env' screens (UInt8.ofNat key.length :: key ++ t) ∧
      SameFlash s (s.afterReading cfg env ev env' screens) := by
  obtain ⟨a, ha, -, hren⟩ := hacc.address hw
  obtain ⟨hcv, hp⟩ := hk.read (by omega)
  obtain ⟨hspec, hok⟩ := Addr.ofKey_spec ha
  obtain ⟨c, hc, hcmd, hconf⟩ : ∃ c, command cfg.build ins = some c ∧ (c = .promptAddr ∨ (c = .getAddr ∧ 1 ≤ p1)) ∧
      s.exec cfg env c p1 p2 (some data) = s.cmdAddr env true p2 (some data) := by
    rcases hins with rfl | ⟨rfl, h⟩
    · exact ⟨.promptAddr, by cases cfg.build <;> decide, .inl rfl, rfl⟩
    · have h1 := le_one_of_ne h
      refine ⟨.getAddr, by cases cfg.build <;> decide, .inr ⟨rfl, h1⟩, ?_⟩
      show s.cmdAddr env (decide (p1 ≥ 1)) p2 (some data) = _
      rw [decide_eq_true h1]
  have hex : s.exec cfg env c p1 p2 (some data) = s.show env (.addr a key true) := by
    rw [hconf, Dev.cmdAddr, Dev.withPath_ok hcv hp]
    simp only [hacc.derived, ha, if_true]
  obtain ⟨screens, s', hr, hfl, hd⟩ := Dev.granted (cfg := cfg) hw hrun hcar hc
    (.addr hcmd hcv rfl hp hacc.derived ha) trivial hex (items := [("Address", .account acc)])
    (fun mem => ⟨rfl, fun n e he => by
      match n, he with
      | 0, he => cases he; exact hren "Address"⟩)
    (by
      intro e he
      rw [List.mem_singleton.mp he]
      exact plain_text (by decide +kernel) (fun _ h => by cases h))
    (by
      intro e he
      rw [List.mem_singleton.mp he]
      trivial) (by simp) (by simp) env' hcr
  have hacce : (View.addr a key true).accept env' s' = s'.ok (keyReply key ++ Tezos.base58 a.bytes) := by
    simp only [View.accept, hok hw.sized, if_true]
  obtain ⟨hg, hf⟩ := hd (keyReply key ++ Tezos.base58 a.bytes) (by rw [hacce]; rfl)
  rw [hacce] at hf
  exact ⟨screens, _, hr _ (by simp), hspec, hg, hfl.trans hf⟩

theorem readable_manage {kind : String} {acc : Account} : ∀ e ∈ manageReview kind acc, e.2.Readable := by
  simp [manageReview, Shown.Readable]

/-- C85, authorization: a request to authorize a key shows the words and the address, and the approval is answered with
the public key and authorizes this key, also for after a restart. -/
theorem C85_authorize (cfg : Config) (hb : cfg.build = .baking) (new : NewDevice)
    (hu : new.upload.length = uploadCapacity) (es : List (Env × Event)) (hes : ∀ e ∈ es, Kind e.1 e.2)
    (hlen : es.length + 1 < 2 ^ 64) (s : Dev) (hs : s = ((Dev.factory new).run cfg es).1) (hrun : s.running = true)
    (env : Env) (hw : env.cr.Works) (ev : Event) (ins p1 p2 : UInt8) (hins : ins ∈ authorizeIns) (hp1 : p1 ≠ 0)
    (data : Bytes) (hcar : Carries ev ins p1 p2 data) (k : PathAndCurve) (hk : Names 10 p2 data k) (key : Bytes)
    (acc : Account) (hacc : IsAccount env.cr k key acc) (env' : Env) (hcr : env'.cr = env.cr)
    (hf : env'.keyF = .done) :
    ∃ screens, (∀ e ∈ manageReview "Authorize Baking" acc, UserRead env.cr.hashes screens e) ∧
      GrantedAfterReading cfg s env ev env' screens (UInt8.ofNat key.length :: key) ∧
      (s.afterReading cfg env ev env' screens).storedKey = some k ∧
      (s.afterReading cfg env ev env' screens).relaunch.storedKey = some k := by
  have ht := Dev.Takes.of_history (cfg := cfg) hu hes (by omega)
  rw [← hs] at ht
  obtain ⟨c, hc⟩ := ht.key
  obtain ⟨a, ha, hna, hren⟩ := hacc.address hw
  obtain ⟨hcv, hp⟩ := hk.read (by omega)
  have hcmd : command cfg.build ins = some .authorize := by
    rw [hb]
    simp only [authorizeIns, List.mem_cons, List.not_mem_nil, or_false] at hins
    rcases hins with rfl | rfl <;> decide
  have hp : Path.read bip32MaxLength data = .ok k.path := hp
  have h1 := le_one_of_ne hp1
  have hex : s.exec cfg env .authorize p1 p2 (some data) = s.show env (.authorize k a) := by
    show s.cmdAuthorize env p1 p2 (some data) = _
    rw [Dev.cmdAuthorize, if_neg (by rw [UInt8.not_lt]; exact h1), Dev.withPath_ok hcv hp]
    simp only [hna]
  obtain ⟨screens, s', hr, hfl, hd⟩ := Dev.granted (cfg := cfg) hw hrun hcar hcmd
    (.authorize h1 hcv rfl hp hna) trivial hex (items := manageReview "Authorize Baking" acc)
    (fun mem => presents_manage hren rfl rfl rfl rfl) (plain_manage (by decide +kernel)) readable_manage
    (by simp [manageReview]) (by simp [manageReview]) env' hcr
  have hwr : (s.key.write .done (keyBytes (some k))).2 = .ok := ht.solid.key.takes _
  have hacce : (View.authorize k a).accept env' s' =
      ({ s' with key := (s.key.write .done (keyBytes (some k))).1 } : Dev).ok (keyReply key) := by
    have hwr' : (s.key.write .done k.encode).2 = .ok := hwr
    simp only [View.accept, hcr, hacc.derived, Dev.storeKey, hf, hfl.key, hwr', Dev.afterWrite]
    rfl
  obtain ⟨hg, hf'⟩ := hd (keyReply key) (by rw [hacce]; rfl)
  rw [hacce] at hf'
  exact ⟨screens, hr, hg, Dev.key_written hc hlen hwr (fun k' e => by cases e; exact hk.short) hf'.key⟩

/-- C85, removal of the authorization: a request to remove it shows the words and the address of the authorized key, and
after the approval no key is authorized, also after a restart. -/
theorem C85_deauthorize (cfg : Config) (hb : cfg.build = .baking) (new : NewDevice)
    (hu : new.upload.length = uploadCapacity) (es : List (Env × Event)) (hes : ∀ e ∈ es, Kind e.1 e.2)
    (hlen : es.length + 1 < 2 ^ 64) (s : Dev) (hs : s = ((Dev.factory new).run cfg es).1) (hrun : s.running = true)
    (env : Env) (hw : env.cr.Works) (ev : Event) (ins p1 p2 : UInt8) (hins : ins ∈ deauthorizeIns) (hp1 : p1 ≠ 0)
    (data : Bytes) (hcar : Carries ev ins p1 p2 data) (k : PathAndCurve) (hk : s.storedKey = some k) (key : Bytes)
    (acc : Account) (hacc : IsAccount env.cr k key acc) (env' : Env) (hcr : env'.cr = env.cr)
    (hf : env'.keyF = .done) :
    ∃ screens, (∀ e ∈ manageReview "DeAuthorize Baking" acc, UserRead env.cr.hashes screens e) ∧
      GrantedAfterReading cfg s env ev env' screens [] ∧
      (s.afterReading cfg env ev env' screens).storedKey = none ∧
      (s.afterReading cfg env ev env' screens).relaunch.storedKey = none := by
  have ht := Dev.Takes.of_history (cfg := cfg) hu hes (by omega)
  rw [← hs] at ht
  obtain ⟨c, hc⟩ := ht.key
  obtain ⟨a, ha, hna, hren⟩ := hacc.address hw
  have hcmd : command cfg.build ins = some .deauthorize := by
    rw [hb]
    simp only [deauthorizeIns, List.mem_cons, List.not_mem_nil, or_false] at hins
    rcases hins with rfl | rfl <;> decide
  have h1 := le_one_of_ne hp1
  have hex : s.exec cfg env .deauthorize p1 p2 (some data) = s.show env (.deauthorize a) := by
    show s.cmdDeauthorize env p1 = _
    rw [Dev.cmdDeauthorize, if_neg (by rw [UInt8.not_lt]; exact h1), Dev.withKey_ok hk]
    simp only [hna]
  obtain ⟨screens, s', hr, hfl, hd⟩ := Dev.granted (cfg := cfg) hw hrun hcar hcmd
    (.deauthorize h1 hk hna) trivial hex (items := manageReview "DeAuthorize Baking" acc)
    (fun mem => presents_manage hren rfl rfl rfl rfl) (plain_manage (by decide +kernel)) readable_manage
    (by simp [manageReview]) (by simp [manageReview]) env' hcr
  have hwr : (s.key.write .done (keyBytes none)).2 = .ok := ht.solid.key.takes _
  have hacce : (View.deauthorize a).accept env' s' =
      ({ s' with key := (s.key.write .done (keyBytes none)).1 } : Dev).ok [] := by
    have hwr' : (s.key.write .done PathAndCurve.empty).2 = .ok := hwr
    simp only [View.accept, Dev.removeKey, hf, hfl.key, hwr', Dev.afterWrite]
    rfl
  obtain ⟨hg, hf'⟩ := hd [] (by rw [hacce]; rfl)
  rw [hacce] at hf'
  exact ⟨screens, hr, hg, Dev.key_written hc hlen hwr (fun k' e => by cases e) hf'.key⟩

/-- C85, query: a request to show the authorized key shows its address, and the approval is answered with its path, after
the curve if that is asked for. -/
theorem C85_query (cfg : Config) (hb : cfg.build = .baking) (s : Dev) (hrun : s.running = true) (env : Env)
    (hw : env.cr.Works) (ev : Event) (wc : Bool) (ins p1 p2 : UInt8) (hins : ins ∈ queryIns wc) (hp1 : p1 ≠ 0)
    (data : Bytes) (hcar : Carries ev ins p1 p2 data) (k : PathAndCurve) (hk : s.storedKey = some k) (key : Bytes)
    (acc : Account) (hacc : IsAccount env.cr k key acc) (env' : Env) (hcr : env'.cr = env.cr) :
    ∃ screens, (∀ e ∈ manageReview "Query Authorized" acc, UserRead env.cr.hashes screens e) ∧
      GrantedAfterReading cfg s env ev env' screens ((if wc then [curveCode k.curve] else []) ++
        (UInt8.ofNat k.path.length :: k.path.flatMap be32)) ∧
      SameFlash s (s.afterReading cfg env ev env' screens) := by
  obtain ⟨a, ha, hna, hren⟩ := hacc.address hw
  have hcmd : command cfg.build ins = some (.queryAuth wc) := by
    rw [hb]
    cases wc <;> simp only [queryIns, Bool.false_eq_true, if_false, if_true, List.mem_cons, List.not_mem_nil,
      or_false] at hins <;> rcases hins with rfl | rfl <;> decide
  have h1 := le_one_of_ne hp1
  have hex : s.exec cfg env (.queryAuth wc) p1 p2 (some data) = s.show env (.query k a wc) := by
    show s.cmdQueryAuth env wc p1 = _
    rw [Dev.cmdQueryAuth, Dev.withKey_ok hk]
    simp only [hna, ge_iff_le, h1, if_true]
  obtain ⟨screens, s', hr, hfl, hd⟩ := Dev.granted (cfg := cfg) hw hrun hcar hcmd
    (.query h1 hk hna) trivial hex (items := manageReview "Query Authorized" acc)
    (fun mem => presents_manage hren rfl rfl rfl rfl) (plain_manage (by decide +kernel)) readable_manage
    (by simp [manageReview]) (by simp [manageReview]) env' hcr
  have hcc : k.curve.toByte = curveCode k.curve := by cases k.curve <;> rfl
  obtain ⟨hg, hf'⟩ := hd _ rfl
  rw [hcc] at hg
  exact ⟨screens, hr, hg, hfl.trans hf'⟩

/-- C85, setup: a request to set up baking shows everything it asks for, and the approval is answered with the public key;
then this key is authorized and the queries report these levels and this chain id, also after a restart. -/
theorem C85_setup (cfg : Config) (hb : cfg.build = .baking) (new : NewDevice)
    (hu : new.upload.length = uploadCapacity) (es : List (Env × Event)) (hes : ∀ e ∈ es, Kind e.1 e.2)
    (hlen : es.length + 1 < 2 ^ 64) (s : Dev) (hs : s = ((Dev.factory new).run cfg es).1) (hrun : s.running = true)
    (env : Env) (hw : env.cr.Works) (ev : Event) (p1 : UInt8) (k : PathAndCurve)
    (hk : 1 ≤ k.path.length ∧ k.path.length ≤ 10) (id l t : UInt32) (extra : Bytes)
    (hcar : Carries ev 0x0A p1 (curveCode k.curve) (be32 id ++ be32 l ++ be32 t ++
      (UInt8.ofNat k.path.length :: k.path.flatMap be32) ++ extra)) (key : Bytes)
    (acc : Account) (hacc : IsAccount env.cr k key acc) (env' : Env) (hcr : env'.cr = env.cr)
    (hf : env'.keyF = .done ∧ env'.mainF = .done ∧ env'.testF = .done ∧ env'.chainF = .done) :
    ∃ screens, (∀ e ∈ setupReview acc id l t, UserRead env.cr.hashes screens e) ∧
      GrantedAfterReading cfg s env ev env' screens (UInt8.ofNat key.length :: key) ∧
      ∀ s', s' = s.afterReading cfg env ev env' screens ∨ s' = (s.afterReading cfg env ev env' screens).relaunch →
        s'.storedKey = some k ∧ Reports cfg s' l t id := by
  have ht := Dev.Takes.of_history (cfg := cfg) hu hes (by omega)
  rw [← hs] at ht
  obtain ⟨c, hc⟩ := ht.key
  obtain ⟨c1, hc1⟩ := ht.mark .main
  obtain ⟨c2, hc2⟩ := ht.mark .test
  obtain ⟨c3, hc3⟩ := ht.mark .chain
  obtain ⟨a, ha, hna, hren⟩ := hacc.address hw
  have hcv := curveCode_ofByte k.curve
  have hcmd : command cfg.build 0x0A = some .setup := by rw [hb]; decide
  generalize hdata : be32 id ++ be32 l ++ be32 t ++ (UInt8.ofNat k.path.length :: k.path.flatMap be32) ++ extra = data
    at hcar
  have hassoc : data = be32 id ++ (be32 l ++ (be32 t ++
      ((UInt8.ofNat k.path.length :: k.path.flatMap be32) ++ extra))) := by rw [← hdata]; simp
  have e0 : slice data 0 4 = be32 id := by
    rw [hassoc]; unfold slice; rw [List.drop_zero, List.take_left' (be32_length _)]
  have e1 : slice data 4 4 = be32 l := by
    rw [hassoc]; unfold slice
    rw [List.drop_left' (be32_length _), List.take_left' (be32_length _)]
  have d12 : data.drop 12 = (UInt8.ofNat k.path.length :: k.path.flatMap be32) ++ extra := by
    have : be32 id ++ be32 l ++ be32 t ++ ((UInt8.ofNat k.path.length :: k.path.flatMap be32) ++ extra) = data := by
      rw [← hdata]; simp
    rw [← this, List.drop_left' (by simp)]
  have e2 : slice data 8 4 = be32 t := by
    have : be32 id ++ be32 l ++ (be32 t ++ ((UInt8.ofNat k.path.length :: k.path.flatMap be32) ++ extra)) = data := by
      rw [← hdata]; simp
    rw [← this]; unfold slice
    rw [List.drop_left' (by simp), List.take_left' (be32_length _)]
  have hto : (UInt8.ofNat k.path.length).toNat = k.path.length := by
    simp only [UInt8.toNat_ofNat']; omega
  have hg12 : data.getD 12 0 = UInt8.ofNat k.path.length := by
    have : data[12]? = some (UInt8.ofNat k.path.length) := by
      have := List.getElem?_drop (xs := data) (i := 12) (j := 0)
      rw [d12] at this
      simpa using this.symm
    rw [List.getD_eq_getElem?_getD, this]
    rfl
  have hflat : (k.path.flatMap be32).length = 4 * k.path.length := by
    have : ∀ p : List UInt32, (p.flatMap be32).length = 4 * p.length := by
      intro p
      induction p with
      | nil => rfl
      | cons x xs ih => simp only [List.flatMap_cons, List.length_append, be32_length, List.length_cons, ih]; omega
    exact this k.path
  have hl : data.length = 13 + 4 * k.path.length + extra.length := by
    rw [← hdata]
    simp only [List.length_append, be32_length, List.length_cons, hflat]
    omega
  have hsl : slice data 12 (1 + 4 * (data.getD 12 0).toNat) = k.path.serialize := by
    unfold slice
    rw [hg12, hto, d12, List.take_left' (by simp only [List.length_cons, hflat]; omega)]
    rfl
  have hp : Path.read bip32MaxLength (slice data 12 (1 + 4 * (data.getD 12 0).toNat)) = .ok k.path := by
    rw [hsl, Path.read_ok]
    exact ⟨hk.1, hk.2, by omega, rfl⟩
  have h13 : 13 ≤ data.length := by omega
  have h13' : 13 + 4 * (data.getD 12 0).toNat ≤ data.length := by rw [hg12, hto]; omega
  have hop := Opens.setup (env := env) (s := s) (p1 := p1) hcv rfl h13 h13' hp hna
  rw [e0, e1, e2, u32OfBe_be32, u32OfBe_be32, u32OfBe_be32] at hop
  have hex : s.exec cfg env .setup p1 (curveCode k.curve) (some data) =
      s.show env (.setup k a l t (ChainID.ofU32 id)) := by
    show s.cmdSetup env (curveCode k.curve) (some data) = _
    unfold Dev.cmdSetup
    simp only [hcv]
    rw [if_neg (by omega), if_neg (by omega)]
    simp only [hp, hna, e0, e1, e2, u32OfBe_be32]
  obtain ⟨screens, s', hr, hfl, hd⟩ := Dev.granted (cfg := cfg) hw hrun hcar hcmd hop trivial hex
    (items := setupReview acc id l t)
    (fun mem => ⟨rfl, fun n e he => by
      match n, he with
      | 0, he => cases he; exact renders_words rfl
      | 1, he => cases he; exact hren "Address"
      | 2, he => cases he; exact renders_chain env.cr _ "Chain"
      | 3, he => cases he; exact renders_level
      | 4, he => cases he; exact renders_level⟩) (plain_setup _ _ _ _)
    (by
      simp only [setupReview, List.forall_mem_cons]
      refine ⟨trivial, trivial, ?_, trivial, trivial, fun _ h => by cases h⟩
      unfold chainShown
      split
      · trivial
      · split <;> trivial) (by simp [setupReview]) (by simp [setupReview]) env' hcr
  have w0 : (s.key.write .done (keyBytes (some k))).2 = .ok := ht.solid.key.takes _
  have w1 : (s.main.write .done (hwmBytes l)).2 = .ok := ht.solid.main.takes _
  have w2 : (s.test.write .done (hwmBytes t)).2 = .ok := ht.solid.test.takes _
  have w3 : (s.chain.write .done (chainIdEncode id)).2 = .ok := ht.solid.chain.takes _
  have hacce : (View.setup k a l t (ChainID.ofU32 id)).accept env' s' =
      ({ s' with key := (s.key.write .done (keyBytes (some k))).1
                 main := (s.main.write .done (hwmBytes l)).1
                 test := (s.test.write .done (hwmBytes t)).1
                 chain := (s.chain.write .done (chainIdEncode id)).1 } : Dev).ok (keyReply key) := by
    have w0' : (s.key.write .done k.encode).2 = .ok := w0
    have w1' : (s.main.write .done (WaterMark.reset l false).encode).2 = .ok := w1
    have w2' : (s.test.write .done (WaterMark.reset t false).encode).2 = .ok := w2
    simp only [View.accept, hcr, hacc.derived, Dev.storeKey, Dev.writeMain, Dev.writeTest, Dev.writeChain, hf.1, hf.2.1,
      hf.2.2.1, hf.2.2.2, hfl.key, hfl.main, hfl.test, hfl.chain, w0', w1', w2', w3, Dev.afterWrite, ChainID.ofU32_toU32]
    rfl
  obtain ⟨hg, hf'⟩ := hd (keyReply key) (by rw [hacce]; rfl)
  rw [hacce] at hf'
  obtain ⟨k1, k2⟩ := Dev.key_written (s' := s.afterReading cfg env ev env' screens) hc hlen w0
    (fun k' e => by cases e; exact hk) hf'.key
  have hlen' : ∀ l, (hwmBytes l).length = slotSize := fun l => by
    simp only [hwmBytes, WaterMark.encode_length, slotSize]
  obtain ⟨m1, m2⟩ := hc1.written hlen (hlen' l) w1 hf'.main
  obtain ⟨t1, t2⟩ := hc2.written hlen (hlen' t) w2 hf'.test
  obtain ⟨i1, i2⟩ := hc3.written hlen (chainId_length id) w3 hf'.chain
  refine ⟨screens, hr, hg, fun s2 hs2 => ?_⟩
  have := fun h1 h2 h3 => Reports.of_reads (cfg := cfg) (s := s2) (b1 := hwmBytes l) (b2 := hwmBytes t)
    (b3 := chainIdEncode id) h1 h2 h3
  simp only [Mark.value, hwmBytes_level, chainIdDecode_encode] at this
  rcases hs2 with rfl | rfl
  · exact ⟨k1, this m1 t1 i1⟩
  · exact ⟨k2, this m2 t2 i2⟩

/-- A record that passes its checks holds nothing or a value. -/
theorem Store.Firm.holds {st : Store} (h : st.Firm) {n : Nat} {c : Cell} (hc : st.Holds n c) : c ≠ .broken := by
  rintro rfl
  cases hk : st.cache with
  | none =>
    have := hc.read_eq
    exact h.read this
  | some i =>
    generalize hx : Cell.broken = x at hc
    cases hc with
    | good => split at hx <;> cases hx
    | broken hn hp => rw [hk] at hn; cases hn

/-- C85, reset: a request to set the watermarks is answered with success, and the queries report the requested level for
both of them, also after a restart; the chain id stays, and is that of mainnet if there was none. -/
theorem C85_reset (cfg : Config) (hb : cfg.build = .baking) (new : NewDevice)
    (hu : new.upload.length = uploadCapacity) (es : List (Env × Event)) (hes : ∀ e ∈ es, Kind e.1 e.2)
    (hlen : es.length + 1 < 2 ^ 64) (s : Dev) (hs : s = ((Dev.factory new).run cfg es).1) (hrun : s.running = true)
    (env : Env) (hf : env.mainF = .done ∧ env.testF = .done ∧ env.chainF = .done) (ev : Event) (p1 p2 : UInt8)
    (l : UInt32) (extra : Bytes) (hcar : Carries ev 0x06 p1 p2 (be32 l ++ extra)) :
    (s.step cfg env ev).2 = ⟨some [0x90, 0x00], none, none⟩ ∧
    ∃ ch, (s.chain.read = .err .uninitialized ∧ ch = 0x7A06A770 ∨ ∃ b, s.chain.read = .ok b ∧ ch = chainIdDecode b) ∧
      ∀ s', s' = (s.step cfg env ev).1 ∨ s' = (s.step cfg env ev).1.relaunch → Reports cfg s' l l ch := by
  have ht := Dev.Takes.of_history (cfg := cfg) hu hes (by omega)
  rw [← hs] at ht
  obtain ⟨c1, hc1⟩ := ht.mark .main
  obtain ⟨c2, hc2⟩ := ht.mark .test
  obtain ⟨c3, hc3⟩ := ht.mark .chain
  have hlen' : ∀ l, (hwmBytes l).length = slotSize := fun l => by
    simp only [hwmBytes, WaterMark.encode_length, slotSize]
  have w1 : (s.main.write .done (hwmBytes l)).2 = .ok := ht.solid.main.takes _
  have w2 : (s.test.write .done (hwmBytes l)).2 = .ok := ht.solid.test.takes _
  have w3 : (s.chain.write .done (chainIdEncode mainnetChainId)).2 = .ok := ht.solid.chain.takes _
  have hcmd : command cfg.build 0x06 = some .reset := by rw [hb]; decide
  have hstep : s.step cfg env ev = (s.resetHwm env l).deliver := by
    rw [hcar.step hrun hcmd]
    show (s.cmdReset env (some (be32 l ++ extra))).deliver = _
    unfold Dev.cmdReset
    simp only
    rw [if_neg (by simp), List.take_left' (be32_length l), u32OfBe_be32]
  have w1' : (s.main.write .done (WaterMark.reset l false).encode).2 = .ok := w1
  have w2' : (s.test.write .done (WaterMark.reset l false).encode).2 = .ok := w2
  obtain ⟨m1, m2⟩ := hc1.written hlen (hlen' l) w1 rfl
  obtain ⟨t1, t2⟩ := hc2.written hlen (hlen' l) w2 rfl
  have hrep : ∀ (s' : Dev) (ch : UInt32) (b : Bytes), chainIdDecode b = ch → s'.main.read = .ok (hwmBytes l) →
      s'.test.read = .ok (hwmBytes l) → s'.chain.read = .ok b → Reports cfg s' l l ch := by
    intro s' ch b hch h1 h2 h3
    have := Reports.of_reads (cfg := cfg) (s := s') h1 h2 h3
    simp only [Mark.value, hwmBytes_level, hch] at this
    exact this
  have hchain : s.chain.read = c3.readRes := hc3.read_eq
  have hbr := ht.solid.chain.holds hc3
  cases c3 with
  | broken => exact absurd rfl hbr
  | blank =>
    have hchain : s.chain.read = .err .uninitialized := hchain
    have hst : s.step cfg env ev = ({ s with main := (s.main.write .done (hwmBytes l)).1
                                             test := (s.test.write .done (hwmBytes l)).1
                                             chain := (s.chain.write .done (chainIdEncode mainnetChainId)).1 },
        ⟨some [0x90, 0x00], none, none⟩) := by
      rw [hstep]
      simp only [Dev.resetHwm, Dev.writeMain, Dev.writeTest, Dev.writeChain, hf.1, hf.2.1, hf.2.2, w1', w2', w3,
        Dev.afterWrite, hchain]
      exact Dev.ok_step _ _
    obtain ⟨i1, i2⟩ := hc3.written hlen (chainId_length mainnetChainId) w3 rfl
    refine ⟨by rw [hst], _, .inl ⟨hchain, rfl⟩, fun s' hs' => ?_⟩
    rw [hst] at hs'
    rcases hs' with rfl | rfl
    · exact hrep _ _ _ (chainIdDecode_encode _) m1 t1 i1
    · exact hrep _ _ _ (chainIdDecode_encode _) m2 t2 i2
  | val b =>
    have hchain : s.chain.read = .ok b := hchain
    have hst : s.step cfg env ev = ({ s with main := (s.main.write .done (hwmBytes l)).1
                                             test := (s.test.write .done (hwmBytes l)).1 },
        ⟨some [0x90, 0x00], none, none⟩) := by
      rw [hstep]
      simp only [Dev.resetHwm, Dev.writeMain, Dev.writeTest, Dev.writeChain, hf.1, hf.2.1, w1', w2',
        Dev.afterWrite, hchain]
      exact Dev.ok_step _ _
    refine ⟨by rw [hst], _, .inr ⟨b, hchain, rfl⟩, fun s' hs' => ?_⟩
    rw [hst] at hs'
    rcases hs' with rfl | rfl
    · exact hrep _ _ _ rfl m1 t1 hchain
    · exact hrep _ _ _ rfl m2 t2 (hc3.relaunch.read_eq)

/-! ### Concrete cases -/

namespace Demo

theorem fine_kind (ev : Event) (h : ev.Full) : Kind fine ev :=
  ⟨crypto_sized, trivial, trivial, trivial, trivial, by simp [fine], by simp [fine], h⟩

theorem key_names : Names 10 0 keyPath key := ⟨rfl, by decide, by decide⟩

/-- The account of `key`. -/
def keyAccount : Account := ⟨.ed25519, hash 20 (hashedKey .ed25519 (hash 33 [0, 0x80, 0, 0, 44, 0x80, 0, 6, 0xc1]))⟩

theorem key_account : IsAccount crypto key (hash 33 [0, 0x80, 0, 0, 44, 0x80, 0, 6, 0xc1]) keyAccount :=
  ⟨by decide +kernel, rfl, rfl⟩

theorem setup_kind (l : UInt32) : ∀ e ∈ setup l, Kind e.1 e.2 := by
  intro e he
  have h : ∀ e ∈ setup l, e.1 = fine ∧ e.2.Full := by
    simp only [setup, ok, List.mem_map]
    rintro _ ⟨ev, hev, rfl⟩
    refine ⟨rfl, ?_⟩
    simp only [List.mem_cons, List.mem_append, List.mem_replicate, List.not_mem_nil, or_false] at hev
    rcases hev with (rfl | ⟨-, rfl⟩) | rfl
    · simp only [Event.Full, apdu, List.length_append, List.length_replicate, mainnet, keyPath, be32_length,
        List.length_cons, List.length_nil]
    · trivial
    · trivial
  obtain ⟨h1, h2⟩ := h e he
  rw [h1]
  exact fine_kind _ h2

set_option maxRecDepth 100000 in
/-- `C85_authorize` after a setup, on the larger display. -/
example : ∃ screens, (∀ e ∈ manageReview "Authorize Baking" keyAccount, UserRead crypto.hashes screens e) ∧
    ((((Dev.factory newLarge).run bakingApp (setup 5)).1.afterReading bakingApp fine (apdu 0xA1 1 0 keyPath) fine
      screens).storedKey = some key) := by
  obtain ⟨screens, h1, -, h3, -⟩ := C85_authorize bakingApp rfl newLarge (by decide +kernel) (setup 5) (setup_kind 5)
    (by decide) _ rfl (by decide +kernel) fine crypto_works (apdu 0xA1 1 0 keyPath) 0xA1 1 0 (by decide) (by decide)
    keyPath (apdu_carries _ _ _ _ (by decide)) key key_names _ _ key_account fine rfl rfl
  exact ⟨screens, h1, h3⟩

set_option maxRecDepth 100000 in
/-- The hypotheses of the other theorems: a key is authorized after a setup, and the requests are commands. -/
example :
    let s := ((Dev.factory newLarge).run bakingApp (setup 5)).1
    s.running = true ∧ s.storedKey = some key ∧ Carries (apdu 0xAC 1 0 []) 0xAC 1 0 [] ∧
    Carries (apdu 0xAD 1 0 []) 0xAD 1 0 [] ∧ Carries (apdu 0x03 0 0 keyPath) 0x03 0 0 keyPath ∧
    Names 6 0 keyPath key ∧ Carries (apdu 0x06 0 0 (be32 9)) 0x06 0 0 (be32 9 ++ []) ∧
    Carries (apdu 0x0A 0 0 ([1, 2, 3, 4] ++ be32 5 ++ be32 70 ++ keyPath)) 0x0A 0 (curveCode key.curve)
      (be32 0x01020304 ++ be32 5 ++ be32 70 ++ (UInt8.ofNat key.path.length :: key.path.flatMap be32) ++ []) := by
  refine ⟨by decide +kernel, by decide +kernel, apdu_carries _ _ _ _ (by decide), apdu_carries _ _ _ _ (by decide),
    apdu_carries _ _ _ _ (by decide), ⟨rfl, by decide, by decide⟩, ?_, ?_⟩
  · rw [List.append_nil]; exact apdu_carries _ _ _ _ (by decide)
  · have e : be32 0x01020304 ++ be32 5 ++ be32 70 ++ (UInt8.ofNat key.path.length :: key.path.flatMap be32) ++ [] =
      [1, 2, 3, 4] ++ be32 5 ++ be32 70 ++ keyPath := by decide
    rw [e]
    exact apdu_carries _ _ _ _ (by decide)

end Demo

end Tezos
