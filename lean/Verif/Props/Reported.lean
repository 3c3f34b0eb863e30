import Verif.Props.Forgets
import Verif.Props.Crash
/-
C115: the chain and the test level of a setup are stored and reported; nothing else depends on them. Two devices that
differ in these two records only give the same answers, except to the query that reports them, and show the same
screens.
-/
set_option linter.unusedSimpArgs false
set_option linter.unusedVariables false
namespace Tezos
attribute [local irreducible] knownBakers

/-! ### The two records -/

/-- The other device: another record of the test level and another record of the chain. -/
def Dev.tc (s : Dev) (t c : Store) : Dev := { s with test := t, chain := c }

/-- The two records pass their checksums on both devices. -/
structure Dev.Beside (s : Dev) (t c : Store) : Prop where
  test : s.test.Firm
  chain : s.chain.Firm
  t : t.Firm
  c : c.Firm

/-- Two results that differ in the two records only. -/
def Res.Beside (r r' : Res) : Prop := ∃ t c, r' = ⟨r.st.tc t c, r.out, r.sig⟩ ∧ r.st.Beside t c

/-- What the outside world does to the two records: a write of the test level completes or leaves a page that passes its
checksum, a write of the chain completes. -/
structure Env.Steady (env : Env) : Prop where
  test : env.testF.Whole
  chain : env.chainF = .done

theorem Store.Firm.write_res {st st' : Store} (h : st.Firm) (h' : st'.Firm) (f : Fate) (b b' : Bytes) :
    (st'.write f b').2 = (st.write f b).2 := by
  obtain ⟨i, hw⟩ := h.wear
  obtain ⟨j, hw'⟩ := h'.wear
  unfold Store.write
  simp only [hw, hw', Wear.write]
  rw [if_neg h.pos, if_neg h'.pos]
  cases f <;> rfl

section
variable {s : Dev} {t c : Store} {env : Env}

theorem Dev.Beside.done (hb : s.Beside t c) {out : HRes} {sig : Option SigRec} :
    Res.Beside ⟨s, out, sig⟩ ⟨s.tc t c, out, sig⟩ := ⟨t, c, rfl, hb⟩

theorem Dev.Beside.afterWrite (hb : s.Beside t c) (r : WriteRes) (e : ApduError) {k k' : Dev → Res}
    (hk : Res.Beside (k s) (k' (s.tc t c))) : Res.Beside (s.afterWrite r e k) ((s.tc t c).afterWrite r e k') := by
  cases r with
  | ok => exact hk
  | _ => exact hb.done

theorem Dev.Beside.withRead (hb : s.Beside t c) (r : ReadRes) (e : ApduError) {k k' : Bytes → Res}
    (hk : ∀ b, Res.Beside (k b) (k' b)) : Res.Beside (s.withRead r e k) ((s.tc t c).withRead r e k') := by
  cases r with
  | ok => exact hk _
  | _ => exact hb.done

theorem Dev.Beside.withKey (hb : s.Beside t c) (e e' : ApduError) {k k' : PathAndCurve → Res}
    (hk : ∀ b, Res.Beside (k b) (k' b)) : Res.Beside (s.withKey e e' k) ((s.tc t c).withKey e e' k') := by
  refine hb.withRead s.key.read e fun b => ?_
  cases PathAndCurve.tryFromBytes b with
  | error e => exact hb.done
  | ok o =>
    cases o with
    | none => exact hb.done
    | some k => exact hk k

theorem Dev.Beside.withPath (hb : s.Beside t c) (n : Nat) (p2 : UInt8) (pl : Option Bytes) {k k' : PathAndCurve → Res}
    (hk : ∀ b, Res.Beside (k b) (k' b)) : Res.Beside (s.withPath n p2 pl k) ((s.tc t c).withPath n p2 pl k') := by
  unfold Dev.withPath
  cases Curve.ofByte p2 with
  | none => exact hb.done
  | some cv =>
    cases pl with
    | none => exact hb.done
    | some p =>
      dsimp only
      cases Path.read n p with
      | error e => exact hb.done
      | ok path => exact hk _

/-- The record of the test level is written on both devices, with different levels possibly. -/
theorem Dev.Beside.writeTest (hb : s.Beside t c) (he : env.Steady) (w w' : WaterMark) (e : ApduError)
    {k k' : Dev → Res}
    (hk : ∀ (s' : Dev) (t' c' : Store), s'.Beside t' c' → Res.Beside (k s') (k' (s'.tc t' c'))) :
    Res.Beside ((s.writeTest env w).1.afterWrite (s.writeTest env w).2 e k)
      (((s.tc t c).writeTest env w').1.afterWrite ((s.tc t c).writeTest env w').2 e k') := by
  have hr : ((s.tc t c).writeTest env w').2 = (s.writeTest env w).2 :=
    hb.test.write_res hb.t env.testF w.encode w'.encode
  rw [hr]
  have hb1 : Dev.Beside (s.writeTest env w).1 (t.write env.testF w'.encode).1 c :=
    ⟨(hb.test.write he.test w.encode_length).1, hb.chain, (hb.t.write he.test w'.encode_length).1, hb.c⟩
  exact hb1.afterWrite _ _ (hk _ _ _ hb1)

/-- The record of the chain is written on both devices, with different chains possibly. -/
theorem Dev.Beside.writeChain (hb : s.Beside t c) (he : env.Steady) (id id' : UInt32) (e : ApduError)
    {k k' : Dev → Res}
    (hk : ∀ (s' : Dev) (t' c' : Store), s'.Beside t' c' → Res.Beside (k s') (k' (s'.tc t' c'))) :
    Res.Beside ((s.writeChain env id).1.afterWrite (s.writeChain env id).2 e k)
      (((s.tc t c).writeChain env id').1.afterWrite ((s.tc t c).writeChain env id').2 e k') := by
  have hf : env.chainF.Whole := by rw [he.chain]; trivial
  have hr : ((s.tc t c).writeChain env id').2 = (s.writeChain env id).2 := hb.chain.write_res hb.c env.chainF _ _
  rw [hr]
  have hb1 : Dev.Beside (s.writeChain env id).1 t (c.write env.chainF (chainIdEncode id')).1 :=
    ⟨hb.test, (hb.chain.write hf (chainId_length id)).1, hb.t, (hb.c.write hf (chainId_length id')).1⟩
  exact hb1.afterWrite _ _ (hk _ _ _ hb1)

theorem Store.Firm.written {st : Store} (h : st.Firm) (b : Bytes) : (st.write .done b).2 = .ok := by
  obtain ⟨i, hw⟩ := h.wear
  unfold Store.write
  simp only [hw, Wear.write]
  rw [if_neg h.pos]
  rfl

theorem Dev.Beside.show (hb : s.Beside t c) (v : View) : Res.Beside (s.show env v) ((s.tc t c).show env v) := by
  have hv : ∀ z : Zui, Dev.Beside { s with view := some v, zui := z } t c := fun z => ⟨hb.1, hb.2, hb.3, hb.4⟩
  have hn : ∀ z : Zui, Dev.Beside { v.reject { s with view := some v } with zui := z, view := none } t c := fun z => by
    cases v <;> exact ⟨hb.1, hb.2, hb.3, hb.4⟩
  unfold Dev.show
  have hz : (s.tc t c).zui = s.zui := rfl
  have hu : (s.tc t c).upl = s.upl := rfl
  dsimp only
  rw [hz, hu]
  cases s.zui.openReview (v.viewer env.cr s.upl.buf) with
  | shown z => exact (hv z).done
  | failed z => exact (hv _).done
  | rejected z =>
    have := (hn { z with screen := .error }).done (out := .shown (some (statusWord .commandNotAllowed))) (sig := none)
    cases v <;> exact this
  | panic => exact (hv s.zui).done
  | hang => exact (hv s.zui).done

theorem Dev.Beside.bakingSign (hb : s.Beside t c) (sendHash : Bool) (digest msg : Bytes) :
    Res.Beside (s.bakingSign env sendHash digest msg) ((s.tc t c).bakingSign env sendHash digest msg) := by
  refine hb.withKey _ _ fun k => ?_
  cases env.cr.sign k.curve k.path digest with
  | none => exact hb.done
  | some sig => exact hb.done

/-- Approving two setups that differ in the chain and in the test level. -/
theorem Dev.Beside.acceptSetup (hb : s.Beside t c) (he : env.Steady) (k : PathAndCurve) (a a' : Addr)
    (m tl tl' : UInt32) (ch ch' : ChainID) :
    Res.Beside ((View.setup k a m tl ch).accept env s) ((View.setup k a' m tl' ch').accept env (s.tc t c)) := by
  simp only [View.accept]
  cases env.cr.publicKey k.curve k.path with
  | none => exact hb.done
  | some key =>
    have hb1 : Dev.Beside (s.storeKey env k).1 t c := ⟨hb.1, hb.2, hb.3, hb.4⟩
    refine hb1.afterWrite _ _ ?_
    have hb2 : Dev.Beside ((s.storeKey env k).1.writeMain env (WaterMark.reset m false)).1 t c :=
      ⟨hb.1, hb.2, hb.3, hb.4⟩
    refine hb2.afterWrite _ _ ?_
    exact hb2.writeTest he _ _ _ fun s3 t3 c3 hb3 => hb3.writeChain he _ _ _ fun s4 t4 c4 hb4 => hb4.done

theorem Dev.Beside.accept (hb : s.Beside t c) (he : env.Steady) (v : View) :
    Res.Beside (v.accept env s) (v.accept env (s.tc t c)) := by
  cases v with
  | sign sendHash digest r msg =>
    simp only [View.accept]
    have hp : (s.tc t c).path = s.path := rfl
    rw [hp]
    cases s.path with
    | none => exact hb.done
    | some pc =>
      obtain ⟨path, curve⟩ := pc
      dsimp only
      cases env.cr.sign curve path digest with
      | none => exact hb.done
      | some sig => exact Dev.Beside.done (s := { s with path := none }) ⟨hb.1, hb.2, hb.3, hb.4⟩
  | bakingSign sendHash digest r o msg => exact hb.bakingSign _ _ _
  | addr a key withAddr =>
    simp only [View.accept]
    split
    · cases a.base58 with
      | error e => exact hb.done
      | ok t => exact hb.done
    · exact hb.done
  | authorize k a =>
    simp only [View.accept]
    cases env.cr.publicKey k.curve k.path with
    | none => exact hb.done
    | some key =>
      have hb1 : Dev.Beside (s.storeKey env k).1 t c := ⟨hb.1, hb.2, hb.3, hb.4⟩
      exact hb1.afterWrite _ _ hb1.done
  | deauthorize a =>
    have hb1 : Dev.Beside (s.removeKey env).1 t c := ⟨hb.1, hb.2, hb.3, hb.4⟩
    exact hb1.afterWrite _ _ (k := fun s => s.ok []) (k' := fun s => s.ok []) hb1.done
  | query k a wc => exact hb.done
  | setup k a m tl ch => exact hb.acceptSetup he k a a m tl tl ch ch

/-- Resetting: the chain is set where there is none, on one of the devices or on both. -/
theorem Dev.Beside.cmdReset (hb : s.Beside t c) (he : env.Steady) (pl : Option Bytes) :
    Res.Beside (s.cmdReset env pl) ((s.tc t c).cmdReset env pl) := by
  unfold Dev.cmdReset
  cases pl with
  | none => exact hb.done
  | some p =>
    dsimp only
    split
    · exact hb.done
    · generalize u32OfBe (p.take 4) = lv
      unfold Dev.resetHwm
      have hb1 : Dev.Beside (s.writeMain env (WaterMark.reset lv false)).1 t c := ⟨hb.1, hb.2, hb.3, hb.4⟩
      refine hb1.afterWrite _ _ ?_
      refine hb1.writeTest he _ _ _ fun s3 t3 c3 hb3 => ?_
      have hw : ∀ (s : Dev), s.chain.Firm → ∃ c', c'.Firm ∧ (match s.chain.read with
          | .panic => s.fault .panic
          | .err .uninitialized =>
            have w := s.writeChain env mainnetChainId
            w.1.afterWrite w.2 .executionError fun s => s.ok []
          | _ => s.ok []) = ⟨{ s with chain := c' }, .ok [], none⟩ := by
        intro s hs
        have hno := hs.read
        cases hr : s.chain.read with
        | panic => exact absurd hr hno
        | ok b => exact ⟨s.chain, hs, rfl⟩
        | err x =>
          cases x
          case uninitialized =>
            refine ⟨(s.chain.write .done (chainIdEncode mainnetChainId)).1,
              (hs.write (f := .done) trivial (chainId_length _)).1, ?_⟩
            simp only [Dev.writeChain, he.chain, hs.written, Dev.afterWrite]
            rfl
          all_goals exact ⟨s.chain, hs, rfl⟩
      obtain ⟨c1, hc1, e1⟩ := hw s3 hb3.chain
      obtain ⟨c2, hc2, e2⟩ := hw (s3.tc t3 c3) hb3.c
      exact (congrArg₂ Res.Beside e1 e2).mpr ⟨t3, c2, rfl, hb3.test, hc1, hb3.t, hc2⟩

theorem Dev.Beside.cmdQueryMain (hb : s.Beside t c) : Res.Beside s.cmdQueryMain (s.tc t c).cmdQueryMain := by
  unfold Dev.cmdQueryMain
  have hm : (s.tc t c).main = s.main := rfl
  rw [hm]
  cases s.main.read with
  | err e => cases e <;> exact hb.done
  | _ => exact hb.done

theorem Dev.Beside.cmdAuthorize (hb : s.Beside t c) (p1 p2 : UInt8) (pl : Option Bytes) :
    Res.Beside (s.cmdAuthorize env p1 p2 pl) ((s.tc t c).cmdAuthorize env p1 p2 pl) := by
  unfold Dev.cmdAuthorize
  split
  · exact hb.done
  · refine hb.withPath _ _ _ fun k => ?_
    cases newAddr env.cr k.curve k.path with
    | none => exact hb.done
    | some a => exact hb.show _

theorem Dev.Beside.cmdDeauthorize (hb : s.Beside t c) (p1 : UInt8) :
    Res.Beside (s.cmdDeauthorize env p1) ((s.tc t c).cmdDeauthorize env p1) := by
  unfold Dev.cmdDeauthorize
  split
  · exact hb.done
  · refine hb.withKey _ _ fun k => ?_
    cases newAddr env.cr k.curve k.path with
    | none => exact hb.done
    | some a => exact hb.show _

theorem Dev.Beside.cmdQueryAuth (hb : s.Beside t c) (he : env.Steady) (wc : Bool) (p1 : UInt8) :
    Res.Beside (s.cmdQueryAuth env wc p1) ((s.tc t c).cmdQueryAuth env wc p1) := by
  unfold Dev.cmdQueryAuth
  refine hb.withKey _ _ fun k => ?_
  cases newAddr env.cr k.curve k.path with
  | none => exact hb.done
  | some a =>
    dsimp only
    split
    · exact hb.show _
    · exact hb.accept he _

theorem Dev.Beside.cmdSetup (hb : s.Beside t c) (p2 : UInt8) (pl : Option Bytes) :
    Res.Beside (s.cmdSetup env p2 pl) ((s.tc t c).cmdSetup env p2 pl) := by
  unfold Dev.cmdSetup
  cases Curve.ofByte p2 with
  | none => exact hb.done
  | some cv =>
    cases pl with
    | none => exact hb.done
    | some p =>
      dsimp only
      split
      · exact hb.done
      · split
        · exact hb.done
        · cases Path.read bip32MaxLength (slice p 12 (1 + 4 * (p.getD 12 0).toNat)) with
          | error e => exact hb.done
          | ok path =>
            dsimp only
            cases newAddr env.cr cv path with
            | none => exact hb.done
            | some a => exact hb.show _

theorem Dev.Beside.cmdHmac (hb : s.Beside t c) (p2 : UInt8) (pl : Option Bytes) :
    Res.Beside (s.cmdHmac env p2 pl) ((s.tc t c).cmdHmac env p2 pl) := by
  unfold Dev.cmdHmac
  cases Curve.ofByte p2 with
  | none => exact hb.done
  | some cv =>
    cases pl with
    | none => exact hb.done
    | some p =>
      dsimp only
      split
      · exact hb.done
      · split
        · exact hb.done
        · cases Path.read bip32MaxLength (p.take (1 + 4 * (p.getD 0 0).toNat)) with
          | error e => exact hb.done
          | ok path =>
            dsimp only
            cases env.cr.sign cv path hmacKeySha256 with
            | none => exact hb.done
            | some sig =>
              dsimp only
              cases env.cr.sha512 sig with
              | none => exact hb.done
              | some k =>
                dsimp only
                cases env.cr.hmac k (p.drop (1 + 4 * (p.getD 0 0).toNat)) with
                | none => exact hb.done
                | some m => exact hb.done

theorem Dev.Beside.cmdAddr (hb : s.Beside t c) (he : env.Steady) (confirm : Bool) (p2 : UInt8) (pl : Option Bytes) :
    Res.Beside (s.cmdAddr env confirm p2 pl) ((s.tc t c).cmdAddr env confirm p2 pl) := by
  refine hb.withPath _ _ _ fun k => ?_
  cases env.cr.publicKey k.curve k.path with
  | none => exact hb.done
  | some key =>
    dsimp only
    cases Addr.ofKey env.cr k.curve key with
    | none => exact hb.done
    | some a =>
      dsimp only
      split
      · exact hb.show _
      · exact hb.accept he _

theorem Dev.Beside.cmdGetKey (hb : s.Beside t c) (p2 : UInt8) (pl : Option Bytes) :
    Res.Beside (s.cmdGetKey env p2 pl) ((s.tc t c).cmdGetKey env p2 pl) := by
  refine hb.withPath _ _ _ fun k => ?_
  cases env.cr.publicKey k.curve k.path with
  | none => exact hb.done
  | some key => exact hb.done

theorem Dev.Beside.startSign (hb : s.Beside t c) (sendHash : Bool) (p2 : UInt8) (first data : Bytes) (ref : MemRef) :
    Res.Beside (s.startSign env sendHash p2 first data ref) ((s.tc t c).startSign env sendHash p2 first data ref) := by
  refine hb.withPath _ _ _ fun k => ?_
  have hb1 : Dev.Beside { s with path := some (k.path, k.curve) } t c := ⟨hb.1, hb.2, hb.3, hb.4⟩
  dsimp only
  cases env.cr.blake2b 32 data with
  | none => exact hb1.done
  | some digest =>
    dsimp only
    cases hp : Preamble.parse data with
    | error e => cases e <;> exact hb1.done
    | ok rp =>
      obtain ⟨rem, p⟩ := rp
      cases p
      case operation =>
        dsimp only
        cases ho : operationNew rem with
        | error e => cases e <;> exact hb1.done
        | ok bo => exact hb1.show _
      case michelson => exact hb1.show _
      all_goals exact hb1.done

theorem Dev.Beside.autoSign (hb : s.Beside t c) (sendHash : Bool) (digest msg : Bytes)
    (dc : WaterMark → Except HErr WaterMark) :
    Res.Beside (s.autoSign env sendHash digest msg dc) ((s.tc t c).autoSign env sendHash digest msg dc) := by
  refine hb.withRead s.main.read _ fun b => ?_
  cases dc (WaterMark.decode b) with
  | error e => cases e <;> exact hb.done
  | ok m =>
    have hb1 : Dev.Beside (s.writeMain env m).1 t c := ⟨hb.1, hb.2, hb.3, hb.4⟩
    exact hb1.afterWrite _ _ (hb1.bakingSign _ _ _)

theorem Dev.Beside.bakerSign (hb : s.Beside t c) (sendHash : Bool) (p2 : UInt8) (first data : Bytes) (ref : MemRef) :
    Res.Beside (s.bakerSign env sendHash p2 first data ref) ((s.tc t c).bakerSign env sendHash p2 first data ref) := by
  refine hb.withPath _ _ _ fun k => ?_
  refine hb.withKey _ _ fun stored => ?_
  split
  · exact hb.done
  · cases env.cr.blake2b 32 data with
    | none => exact hb.done
    | some digest =>
      dsimp only
      cases hp : Preamble.parse data with
      | error e => cases e <;> exact hb.done
      | ok rp =>
        obtain ⟨rem, p⟩ := rp
        cases p
        case operation =>
          dsimp only [Dev.handleDelegation]
          cases ho : operationNew rem with
          | error e => cases e <;> exact hb.done
          | ok bo =>
            obtain ⟨b, ops⟩ := bo
            dsimp only
            cases parseNext ops with
            | error e => cases e <;> exact hb.done
            | ok o =>
              cases o with
              | none => exact hb.done
              | some x =>
                obtain ⟨r, op⟩ := x
                cases op
                case delegation d => exact hb.show _
                case reveal d => exact hb.show _
                all_goals exact hb.done
        case tenderbakePreendorsement => exact hb.autoSign _ _ _ _
        case tenderbakeEndorsement => exact hb.autoSign _ _ _ _
        case endorsement => exact hb.autoSign _ _ _ _
        case tenderbakeBlock => exact hb.autoSign _ _ _ _
        case block => exact hb.autoSign _ _ _ _
        all_goals exact hb.done

theorem Dev.Beside.cmdUpload (hb : s.Beside t c) (acc : Accessor)
    (p1 p2 : UInt8) (pl : Option Bytes) {k : UInt8 → Bytes → Bytes → MemRef → Dev → Res}
    (hk : ∀ (s : Dev) p2 first data ref, s.Beside t c →
      Res.Beside (k p2 first data ref s) (k p2 first data ref (s.tc t c))) :
    Res.Beside (s.cmdUpload env acc p1 p2 pl k) ((s.tc t c).cmdUpload env acc p1 p2 pl k) := by
  unfold Dev.cmdUpload
  have e1 : (s.tc t c).upl = s.upl := rfl
  simp only [e1]
  rcases hr : s.upl.upload env.copyF env.appendF acc p1 p2 pl with ⟨r1, r2⟩
  have hb1 : Dev.Beside { s with upl := r1 } t c := ⟨hb.1, hb.2, hb.3, hb.4⟩
  dsimp only
  cases r2 with
  | complete p2 first data ref =>
    obtain ⟨t2, c2, h2, hb2⟩ := hk _ p2 first data ref hb1
    have h2' : k p2 first data ref { s.tc t c with upl := r1 } = _ := h2
    dsimp only
    rw [h2']
    exact ⟨t2, c2, rfl, hb2.1, hb2.2, hb2.3, hb2.4⟩
  | _ => exact hb1.done

theorem Dev.Beside.exec (hb : s.Beside t c) (he : env.Steady) (cfg : Config) {cmd : Cmd} (hq : cmd ≠ .queryAll)
    (p1 p2 : UInt8) (pl : Option Bytes) :
    Res.Beside (s.exec cfg env cmd p1 p2 pl) ((s.tc t c).exec cfg env cmd p1 p2 pl) := by
  cases cmd with
  | reset => exact hb.cmdReset he _
  | queryMain => exact hb.cmdQueryMain
  | queryAll => exact absurd rfl hq
  | authorize => exact hb.cmdAuthorize _ _ _
  | deauthorize => exact hb.cmdDeauthorize _
  | queryAuth wc => exact hb.cmdQueryAuth he _ _
  | setup => exact hb.cmdSetup _ _
  | hmac => exact hb.cmdHmac _ _
  | bakerSign sh => exact hb.cmdUpload _ _ _ _ fun s p2 first data ref hb => hb.bakerSign _ _ _ _ _
  | sign sh => exact hb.cmdUpload _ _ _ _ fun s p2 first data ref hb => hb.startSign _ _ _ _ _
  | legacyVersion => exact hb.done
  | git => exact hb.done
  | version => exact hb.done
  | getKey => exact hb.cmdGetKey _ _
  | promptAddr => exact hb.cmdAddr he _ _ _
  | getAddr => exact hb.cmdAddr he _ _ _

theorem Dev.Beside.dispatch (hb : s.Beside t c) (he : env.Steady) (cfg : Config) (buf : Bytes) (rx : Nat)
    (hq : command cfg.build (buf.getD 1 0) ≠ some .queryAll) :
    Res.Beside (s.dispatch cfg env buf rx) ((s.tc t c).dispatch cfg env buf rx) := by
  unfold Dev.dispatch
  split
  · exact hb.done
  · split
    · exact hb.done
    · cases hc : command cfg.build (buf.getD 1 0) with
      | none => exact hb.done
      | some cmd => exact hb.exec he cfg (fun h => hq (by rw [hc, h])) _ _ _

/-! ### Steps -/

/-- Two outcomes of an event that differ in the two records only. -/
def StepBeside (r r' : Dev × Output) : Prop := ∃ t c, r' = (r.1.tc t c, r.2) ∧ r.1.Beside t c

theorem Dev.Beside.quiet (hb : s.Beside t c) {o : Output} : StepBeside (s, o) (s.tc t c, o) := ⟨t, c, rfl, hb⟩

theorem Res.Beside.deliver {r r' : Res} (hl : Res.Beside r r') : StepBeside r.deliver r'.deliver := by
  obtain ⟨t, c, rfl, hb⟩ := hl
  obtain ⟨st, out, sig⟩ := r
  cases out with
  | fault f => exact ⟨t, c, rfl, hb.1, hb.2, hb.3, hb.4⟩
  | _ => exact ⟨t, c, rfl, hb⟩

theorem Dev.Beside.rejects (hb : s.Beside t c) : StepBeside s.reject (s.tc t c).reject := by
  obtain ⟨_, _, _, _, _, _, _, view, _⟩ := s
  cases view with
  | none => exact ⟨t, c, rfl, hb.1, hb.2, hb.3, hb.4⟩
  | some v => cases v <;> exact ⟨t, c, rfl, hb.1, hb.2, hb.3, hb.4⟩

theorem Dev.Beside.acceptError (hb : s.Beside t c) : StepBeside s.acceptError (s.tc t c).acceptError := by
  obtain ⟨_, _, _, _, _, _, _, view, _⟩ := s
  cases view <;> exact ⟨t, c, rfl, hb.1, hb.2, hb.3, hb.4⟩

theorem Dev.Beside.approve (hb : s.Beside t c) (he : env.Steady) :
    StepBeside (s.approve env) ((s.tc t c).approve env) := by
  obtain ⟨m, te, ch, k, u, p, z, view, run⟩ := s
  cases view with
  | none => exact ⟨t, c, rfl, hb.1, hb.2, hb.3, hb.4⟩
  | some v =>
    obtain ⟨t2, c2, h2, hb2⟩ := (Dev.Beside.accept (env := env) (t := t) (c := c)
      (s := ⟨m, te, ch, k, u, p, { z with screen := .idle }, some v, run⟩) ⟨hb.1, hb.2, hb.3, hb.4⟩ he v).deliver
    exact ⟨t2, c2, congrArg (fun r : Dev × Output => (({ r.1 with view := none } : Dev), r.2)) h2,
      hb2.1, hb2.2, hb2.3, hb2.4⟩

theorem Dev.Beside.onError (hb : s.Beside t c) (closes : Bool) (move : XError → XError) :
    StepBeside (s.onError closes move) ((s.tc t c).onError closes move) := by
  unfold Dev.onError
  split
  · exact hb.acceptError
  · exact Dev.Beside.quiet (s := { s with zui := s.zui.moveError move }) ⟨hb.1, hb.2, hb.3, hb.4⟩

theorem Dev.Beside.redraw (hb : s.Beside t c) (u : Upd) : StepBeside (s.redraw u) ((s.tc t c).redraw u) := by
  cases u with
  | rejected z =>
    obtain ⟨t2, c2, h2, hb2⟩ := Dev.Beside.rejects (s := { s with zui := z }) (t := t) (c := c)
      ⟨hb.1, hb.2, hb.3, hb.4⟩
    have h2' : Dev.reject { s.tc t c with zui := z } = _ := h2
    unfold Dev.redraw
    dsimp only
    rw [h2']
    exact ⟨t2, c2, rfl, hb2.1, hb2.2, hb2.3, hb2.4⟩
  | _ => exact ⟨t, c, rfl, hb.1, hb.2, hb.3, hb.4⟩

theorem Dev.Beside.pressBoth (hb : s.Beside t c) (he : env.Steady) :
    StepBeside (s.pressBoth env) ((s.tc t c).pressBoth env) := by
  unfold Dev.pressBoth
  have hz : (s.tc t c).zui = s.zui := rfl
  rw [hz]
  have hk : StepBeside
      (match s.zui.chosen with | .approve => s.approve env | .reject => s.reject | .nothing => (s, .quiet))
      (match s.zui.chosen with
        | .approve => (s.tc t c).approve env
        | .reject => (s.tc t c).reject
        | .nothing => (s.tc t c, .quiet)) := by
    cases s.zui.chosen with
    | approve => exact hb.approve he
    | reject => exact hb.rejects
    | nothing => exact hb.quiet
  suffices hs : ∀ r r' : Dev × Output, StepBeside r r' → StepBeside
      (if r.1.running ∧ r.1.zui.jumps then
        let j := r.1.redraw (r.1.zui.expertJump (r.1.viewer env))
        (j.1, ⟨r.2.reply <|> j.2.reply, r.2.sig, r.2.fault <|> j.2.fault⟩)
      else r)
      (if r'.1.running ∧ r'.1.zui.jumps then
        let j := r'.1.redraw (r'.1.zui.expertJump (r'.1.viewer env))
        (j.1, ⟨r'.2.reply <|> j.2.reply, r'.2.sig, r'.2.fault <|> j.2.fault⟩)
      else r') from hs _ _ hk
  intro r r' hk
  obtain ⟨t2, c2, rfl, hb2⟩ := hk
  have hz2 : (r.1.tc t2 c2).zui = r.1.zui := rfl
  have hr2 : (r.1.tc t2 c2).running = r.1.running := rfl
  have hv2 : (r.1.tc t2 c2).viewer env = r.1.viewer env := rfl
  simp only [hz2, hr2, hv2]
  split
  · obtain ⟨t3, c3, h3, hb3⟩ := hb2.redraw (r.1.zui.expertJump (r.1.viewer env))
    rw [h3]
    exact ⟨t3, c3, rfl, hb3⟩
  · exact ⟨t2, c2, rfl, hb2⟩

end

/-- A request for everything there is to report: instruction 0x0B of the baking build. -/
def Event.asksAll (cfg : Config) : Event → Bool
  | .apdu buf _ => cfg.build == .baking && buf.getD 1 0 == 0x0B
  | _ => false

theorem command_queryAll {b : Build} {ins : UInt8} (h : command b ins = some .queryAll) : b = .baking ∧ ins = 0x0B := by
  have hall : ∀ ins : UInt8, ∀ b ∈ [Build.baking, Build.wallet],
      command b ins = some .queryAll → b = .baking ∧ ins = 0x0B := forall_u8 (by decide +kernel)
  exact hall ins b (by cases b <;> simp) h

/-- Whatever is asked except for the report, the same comes out. -/
theorem Dev.Beside.step {s : Dev} {t c : Store} {env : Env} (hb : s.Beside t c) (he : env.Steady) (cfg : Config)
    (ev : Event) (hq : ev.asksAll cfg = false) : StepBeside (s.step cfg env ev) ((s.tc t c).step cfg env ev) := by
  have hr0 : (s.tc t c).running = s.running := rfl
  have hz0 : (s.tc t c).zui = s.zui := rfl
  have hv0 : (s.tc t c).viewer env = s.viewer env := rfl
  cases ev with
  | relaunch =>
    exact ⟨t.relaunch, c.relaunch, rfl, hb.1.relaunch, hb.2.relaunch, hb.3.relaunch, hb.4.relaunch⟩
  | apdu buf rx =>
    simp only [Dev.step, hr0]
    split
    · refine (hb.dispatch he cfg buf rx fun h => ?_).deliver
      obtain ⟨h1, h2⟩ := command_queryAll h
      simp only [Event.asksAll, h1, h2] at hq
      exact absurd hq (by decide)
    · exact hb.quiet
  | left =>
    simp only [Dev.step, hr0, hz0, hv0]
    split
    · cases s.zui.screen with
      | review => exact hb.redraw _
      | error => exact hb.onError _ _
      | idle => exact hb.quiet
    · exact hb.quiet
  | right =>
    simp only [Dev.step, hr0, hz0, hv0]
    split
    · cases s.zui.screen with
      | review => exact hb.redraw _
      | error => exact hb.onError _ _
      | idle => exact hb.quiet
    · exact hb.quiet
  | both =>
    simp only [Dev.step, hr0, hz0]
    split
    · cases s.zui.screen with
      | review => exact hb.pressBoth he
      | error => exact hb.onError _ _
      | idle => exact hb.quiet
    · exact hb.quiet
  | expert =>
    simp only [Dev.step, hr0, hz0]
    split
    · exact ⟨t, c, rfl, hb.1, hb.2, hb.3, hb.4⟩
    · exact hb.quiet

/-- What is seen of an event, apart from the bytes of a report. -/
def maskReport (cfg : Config) (ev : Event) (o : Output) : Output :=
  if ev.asksAll cfg then { o with reply := o.reply.map fun _ => [] } else o

/-- A report is given unless the record of the watermark is broken. -/
theorem Dev.report_cases {s : Dev} (h1 : s.test.Firm) (h2 : s.chain.Firm) :
    (s.main.read = .panic ∧ s.cmdQueryAll = s.fault .panic) ∨
    (s.main.read ≠ .panic ∧ ∃ b, s.cmdQueryAll.deliver = (s, ⟨some b, none, none⟩)) := by
  have n1 := h1.read
  have n2 := h2.read
  simp only [Dev.cmdQueryAll, Dev.allHwm]
  cases s.main.read with
  | panic => exact .inl ⟨rfl, rfl⟩
  | err x => cases x <;> exact .inr ⟨by simp, _, rfl⟩
  | ok m =>
    refine .inr ⟨by simp, ?_⟩
    dsimp only
    cases ht : s.test.read with
    | panic => exact absurd ht n1
    | err x => cases x <;> exact ⟨_, rfl⟩
    | ok t =>
      dsimp only
      cases hc : s.chain.read with
      | panic => exact absurd hc n2
      | err x => cases x <;> exact ⟨_, rfl⟩
      | ok c => exact ⟨_, rfl⟩

/-- Asking for the report: both devices answer, or neither does, and stay as they are. -/
theorem Dev.Beside.step_report {s : Dev} {t c : Store} {env : Env} (hb : s.Beside t c) (cfg : Config)
    (ev : Event) (hq : ev.asksAll cfg = true) :
    ((s.tc t c).step cfg env ev).1 = (s.step cfg env ev).1.tc t c ∧ (s.step cfg env ev).1.Beside t c ∧
    maskReport cfg ev ((s.tc t c).step cfg env ev).2 = maskReport cfg ev (s.step cfg env ev).2 := by
  cases ev with
  | apdu buf rx =>
    have hc : command cfg.build (buf.getD 1 0) = some .queryAll := by
      simp only [Event.asksAll, Bool.and_eq_true, beq_iff_eq] at hq
      rw [hq.1, hq.2]; rfl
    have hr0 : (s.tc t c).running = s.running := rfl
    simp only [Dev.step, hr0, maskReport, hq, if_true]
    split
    · unfold Dev.dispatch
      simp only [hc]
      split
      · exact ⟨rfl, hb, rfl⟩
      · split
        · exact ⟨rfl, hb, rfl⟩
        · simp only [Dev.exec]
          have hm : (s.tc t c).main = s.main := rfl
          rcases Dev.report_cases hb.test hb.chain with ⟨hp, e1⟩ | ⟨hp, b1, e1⟩ <;>
          rcases Dev.report_cases (s := s.tc t c) hb.t hb.c with ⟨hp', e2⟩ | ⟨hp', b2, e2⟩
          · rw [e1, e2]
            exact ⟨rfl, ⟨hb.1, hb.2, hb.3, hb.4⟩, rfl⟩
          · exact absurd hp hp'
          · exact absurd hp' hp
          · rw [e1, e2]
            exact ⟨rfl, hb, rfl⟩
    · exact ⟨rfl, hb, rfl⟩
  | _ => cases hq

/-! ### C115 -/

/-- What is told by a run: what is seen of it, apart from the bytes of the reports. -/
def Dev.told (cfg : Config) (s : Dev) (es : List (Env × Event)) : List (Output × Zui) :=
  (es.zip (s.seen cfg es)).map fun x => (maskReport cfg x.1.2 x.2.1, x.2.2)

/-- C115: the level of the test chain and the chain itself are there to be reported. Two devices that differ in these two
records only answer everything alike, sign the same, and show the same screens; the reports of instruction 0x0B alone
may differ. -/
theorem C115_reported (cfg : Config) (es : List (Env × Event)) (he : ∀ e ∈ es, e.1.Steady) :
    ∀ (s : Dev) (t c : Store), s.Beside t c → (s.tc t c).told cfg es = s.told cfg es := by
  induction es with
  | nil => intro s t c _; rfl
  | cons e es ih =>
    intro s t c hb
    obtain ⟨env, ev⟩ := e
    have ih := ih fun e h => he e (List.mem_cons_of_mem _ h)
    have h0 := he _ List.mem_cons_self
    simp only [Dev.told, Dev.seen, List.zip_cons_cons, List.map_cons] at ih ⊢
    by_cases hq : ev.asksAll cfg = true
    · obtain ⟨h1, h2, h3⟩ := hb.step_report (env := env) cfg ev hq
      rw [h1, h3, ih _ _ _ h2]
      rfl
    · obtain ⟨t2, c2, h2, hb2⟩ := hb.step h0 cfg ev (by simpa using hq)
      rw [h2]
      dsimp only
      rw [ih _ _ _ hb2]
      rfl

/-- The two records stay sound in a steady world. -/
theorem Dev.run_sound {cfg : Config} {es : List (Env × Event)} (he : ∀ e ∈ es, e.1.Steady) :
    ∀ {s : Dev}, s.test.Firm → s.chain.Firm → (s.run cfg es).1.test.Firm ∧ (s.run cfg es).1.chain.Firm := by
  induction es with
  | nil => intro s h1 h2; exact ⟨h1, h2⟩
  | cons e es ih =>
    intro s h1 h2
    obtain ⟨env, ev⟩ := e
    have hb : s.Beside s.test s.chain := ⟨h1, h2, h1, h2⟩
    have h0 := he _ List.mem_cons_self
    have hs : (s.step cfg env ev).1.test.Firm ∧ (s.step cfg env ev).1.chain.Firm := by
      by_cases hq : ev.asksAll cfg = true
      · have := (hb.step_report (env := env) cfg ev hq).2.1
        exact ⟨this.1, this.2⟩
      · obtain ⟨t2, c2, _, hb2⟩ := hb.step h0 cfg ev (by simpa using hq)
        exact ⟨hb2.1, hb2.2⟩
    exact ih (fun e h => he e (List.mem_cons_of_mem _ h)) hs.1 hs.2

/-- C115 for devices with any past: if their keys and their watermarks came to be the same, nothing else of their past,
such as for which chain they were set up, is told after a restart. -/
theorem C115_pasts (cfg₁ cfg₂ cfg : Config) (new₁ new₂ : NewDevice) (hd : new₂.display = new₁.display)
    (hl : new₂.upload.length = new₁.upload.length) (past₁ past₂ es : List (Env × Event))
    (h₁ : ∀ e ∈ past₁, e.1.Steady) (h₂ : ∀ e ∈ past₂, e.1.Steady) (he : ∀ e ∈ es, e.1.Steady)
    (hm : ((Dev.factory new₂).run cfg₂ past₂).1.main.pages = ((Dev.factory new₁).run cfg₁ past₁).1.main.pages)
    (hk : ((Dev.factory new₂).run cfg₂ past₂).1.key.pages = ((Dev.factory new₁).run cfg₁ past₁).1.key.pages) :
    ((Dev.factory new₂).run cfg₂ past₂).1.relaunch.told cfg es =
      ((Dev.factory new₁).run cfg₁ past₁).1.relaunch.told cfg es := by
  have f : Store.Firm ⟨freshPages 8, none⟩ := .fresh (by decide)
  obtain ⟨a1, a2⟩ := Dev.run_sound (cfg := cfg₁) h₁ (s := Dev.factory new₁) f f
  obtain ⟨b1, b2⟩ := Dev.run_sound (cfg := cfg₂) h₂ (s := Dev.factory new₂) f f
  have hdd : ((Dev.factory new₂).run cfg₂ past₂).1.zui.display = ((Dev.factory new₁).run cfg₁ past₁).1.zui.display := by
    rw [Dev.run_display, Dev.run_display]
    show (Zui.init new₂.display).display = (Zui.init new₁.display).display
    rw [hd]
  have hll : ((Dev.factory new₂).run cfg₂ past₂).1.upl.buf.flash.length =
      ((Dev.factory new₁).run cfg₁ past₁).1.upl.buf.flash.length := by
    rw [Dev.run_flash_length (Dev.factory_alike new₁), Dev.run_flash_length (Dev.factory_alike new₂), hl]
  generalize ((Dev.factory new₁).run cfg₁ past₁).1 = x at *
  generalize ((Dev.factory new₂).run cfg₂ past₂).1 = y at *
  have hse : SameEvents es es := by
    clear he
    induction es with
    | nil => exact .nil
    | cons e es ih => exact .cons ⟨Env.Akin.refl _, rfl⟩ ih
  have h1 : y.relaunch.seen cfg es = (x.tc y.test y.chain).relaunch.seen cfg es :=
    C113_forgets cfg (x.tc y.test y.chain) y ⟨hm, rfl, rfl, hk⟩ hdd hll es es hse
  have h2 : (x.relaunch.tc y.test.relaunch y.chain.relaunch).told cfg es = x.relaunch.told cfg es :=
    C115_reported cfg es he _ _ _ ⟨a1.relaunch, a2.relaunch, b1.relaunch, b2.relaunch⟩
  rw [← h2]
  unfold Dev.told
  rw [h1]
  rfl

/-- Approving a setup does not look at what is on the screen. -/
theorem View.accept_setup_view (env : Env) (s : Dev) (v : Option View) (k : PathAndCurve) (a : Addr) (m tl : UInt32)
    (ch : ChainID) :
    ((View.setup k a m tl ch).accept env { s with view := v }).deliver =
      ({ ((View.setup k a m tl ch).accept env s).deliver.1 with view := v },
        ((View.setup k a m tl ch).accept env s).deliver.2) := by
  simp only [View.accept]
  cases env.cr.publicKey k.curve k.path with
  | none => rfl
  | some key =>
    simp only [Dev.storeKey, Dev.writeMain, Dev.writeTest, Dev.writeChain]
    cases (s.key.write env.keyF k.encode).2 with
    | ok =>
      simp only [Dev.afterWrite]
      cases (s.main.write env.mainF (WaterMark.reset m false).encode).2 with
      | ok =>
        simp only [Dev.afterWrite]
        cases (s.test.write env.testF (WaterMark.reset tl false).encode).2 with
        | ok =>
          simp only [Dev.afterWrite]
          cases (s.chain.write env.chainF (chainIdEncode ch.toU32)).2 <;> rfl
        | _ => rfl
      | _ => rfl
    | _ => rfl

/-- C115 for setups: approving a setup for one chain and test level or for another gets the same answer, and from then on
the same is told, without any restart. -/
theorem C115_setup (cfg : Config) (env : Env) (h0 : env.Steady) (es : List (Env × Event)) (he : ∀ e ∈ es, e.1.Steady)
    (s : Dev) (h1 : s.test.Firm) (h2 : s.chain.Firm) (k : PathAndCurve) (a : Addr) (m tl tl' : UInt32) (ch ch' : ChainID) :
    (Dev.approve env { s with view := some (.setup k a m tl' ch') }).2 =
      (Dev.approve env { s with view := some (.setup k a m tl ch) }).2 ∧
    (Dev.approve env { s with view := some (.setup k a m tl' ch') }).1.told cfg es =
      (Dev.approve env { s with view := some (.setup k a m tl ch) }).1.told cfg es := by
  obtain ⟨t2, c2, h, hb⟩ := (Dev.Beside.acceptSetup (env := env) (t := s.test) (c := s.chain)
    (s := { s with zui := { s.zui with screen := .idle } }) ⟨h1, h2, h1, h2⟩ h0 k a a m tl tl' ch ch').deliver
  have hx : ∀ tl ch, Dev.approve env { s with view := some (.setup k a m tl ch) } =
      ({ ((View.setup k a m tl ch).accept env { s with zui := { s.zui with screen := .idle } }).deliver.1 with
        view := none }, ((View.setup k a m tl ch).accept env { s with zui := { s.zui with screen := .idle } }).deliver.2)
      := by
    intro tl ch
    have hv := congrArg (fun r : Dev × Output => (({ r.1 with view := none } : Dev), r.2))
      (View.accept_setup_view env { s with zui := { s.zui with screen := .idle } } (some (.setup k a m tl ch))
        k a m tl ch)
    exact hv
  rw [hx, hx]
  have h' : ((View.setup k a m tl' ch').accept env { s with zui := { s.zui with screen := .idle } }).deliver = _ := h
  rw [h']
  generalize ((View.setup k a m tl ch).accept env { s with zui := { s.zui with screen := .idle } }).deliver = r at hb ⊢
  exact ⟨rfl, C115_reported cfg es he { r.1 with view := none } t2 c2 ⟨hb.1, hb.2, hb.3, hb.4⟩⟩

namespace Demo

/-- A setup of `keyPath` for a chain and a test level; on the small display the review has seven pages. -/
def setupFor (chain : Bytes) (level test : UInt32) : List (Env × Event) :=
  ok <| apdu 0x0A 0 0 (chain ++ be32 level ++ be32 test ++ keyPath) :: List.replicate 6 .right ++ [.both]

/-- Signing, asking for the watermark and the key, a reset, and signing again. -/
def bakersDay : List (Env × Event) :=
  sign (emmyBlock 5) ++ ok [apdu 0x08 0 0 [], apdu 0x0D 0 0 []] ++ reset 9 ++ sign (emmyBlock 8) ++
    sign (emmyBlock 10)

theorem fine_steady : fine.Steady := ⟨trivial, rfl⟩

set_option maxRecDepth 100000 in
/-- Two setups for the level 3: one for the main chain and the test level 0, one for another chain and the test level
1000. The watermarks and the keys are the same, the other records are not. A block of the main chain at the level 5 is
signed on both, below the test level of one of them and for another chain than it was set up for; with the report all is
the same but its bytes. -/
example :
    ((Dev.factory emptyNew).run bakingApp (setupFor mainnet 3 0)).1.main.pages =
      ((Dev.factory emptyNew).run bakingApp (setupFor [1, 2, 3, 4] 3 1000)).1.main.pages ∧
    ((Dev.factory emptyNew).run bakingApp (setupFor mainnet 3 0)).1.key.pages =
      ((Dev.factory emptyNew).run bakingApp (setupFor [1, 2, 3, 4] 3 1000)).1.key.pages ∧
    ((Dev.factory emptyNew).run bakingApp (setupFor mainnet 3 0)).1.test.pages ≠
      ((Dev.factory emptyNew).run bakingApp (setupFor [1, 2, 3, 4] 3 1000)).1.test.pages ∧
    ((Dev.factory emptyNew).run bakingApp (setupFor mainnet 3 0)).1.chain.pages ≠
      ((Dev.factory emptyNew).run bakingApp (setupFor [1, 2, 3, 4] 3 1000)).1.chain.pages ∧
    ((Dev.factory emptyNew).run bakingApp (setupFor [1, 2, 3, 4] 3 1000)).1.seen bakingApp (ok [apdu 0x0B 0 0 []]) ≠
      ((Dev.factory emptyNew).run bakingApp (setupFor mainnet 3 0)).1.seen bakingApp (ok [apdu 0x0B 0 0 []]) ∧
    ((Dev.factory emptyNew).run bakingApp (setupFor [1, 2, 3, 4] 3 1000)).1.seen bakingApp bakersDay =
      ((Dev.factory emptyNew).run bakingApp (setupFor mainnet 3 0)).1.seen bakingApp bakersDay ∧
    (((Dev.factory emptyNew).run bakingApp (setupFor [1, 2, 3, 4] 3 1000)).1.seen bakingApp bakersDay).map
      (fun x => x.1.sig.isSome) = [false, true, false, false, false, false, false, false, true] := by
  decide +kernel

end Demo

end Tezos
