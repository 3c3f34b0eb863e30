import Verif.Props.Keys
/-
What the watermark queries report and which events change the records: C47 to C51.
-/
set_option linter.unusedSimpArgs false
namespace Tezos
open Spec (Item consensusItem isConsensusMagic)

/-! ### The three records read by the watermark queries -/

/-- The main watermark, the test watermark and the chain id. -/
inductive Mark where
  | main | test | chain
  deriving DecidableEq, Repr

def Dev.mark (s : Dev) : Mark → Store
  | .main => s.main
  | .test => s.test
  | .chain => s.chain

def Env.markF (e : Env) : Mark → Fate
  | .main => e.mainF
  | .test => e.testF
  | .chain => e.chainF

/-- The number a record stands for: the level of a watermark, or the chain id. -/
def Mark.value : Mark → Bytes → UInt32
  | .chain, b => chainIdDecode b
  | _, b => (WaterMark.decode b).level

/-- The event asks to set the record `r` to the number `v`: a reset command with a level in its data, the approval of a
setup, or a baking signature request for a message above the watermark. A reset sets the chain id only when there is
none yet. -/
inductive Sets (cfg : Config) (m : Moment) : Mark → UInt32 → Prop where
  | resetMain (buf : Bytes) (rx : Nat) (p : Bytes) (h : Received cfg m.st m.ev buf rx .reset)
      (hp : apduPayload buf = some p) (hl : 4 ≤ p.length) : Sets cfg m .main (u32OfBe (p.take 4))
  | resetTest (buf : Bytes) (rx : Nat) (p : Bytes) (h : Received cfg m.st m.ev buf rx .reset)
      (hp : apduPayload buf = some p) (hl : 4 ≤ p.length) : Sets cfg m .test (u32OfBe (p.take 4))
  | resetChain (buf : Bytes) (rx : Nat) (p : Bytes) (h : Received cfg m.st m.ev buf rx .reset)
      (hp : apduPayload buf = some p) (hl : 4 ≤ p.length) (hc : m.st.chain.read = .err .uninitialized) :
      Sets cfg m .chain 0x7A06A770
  | setupMain (k : PathAndCurve) (a : Addr) (l t : UInt32) (ch : ChainID)
      (h : Approves m.st m.ev (.setup k a l t ch)) : Sets cfg m .main l
  | setupTest (k : PathAndCurve) (a : Addr) (l t : UInt32) (ch : ChainID)
      (h : Approves m.st m.ev (.setup k a l t ch)) : Sets cfg m .test t
  | setupChain (k : PathAndCurve) (a : Addr) (l t : UInt32) (ch : ChainID)
      (h : Approves m.st m.ev (.setup k a l t ch)) : Sets cfg m .chain ch.toU32
  | sign (h : Bool) (buf : Bytes) (rx : Nat) (hrec : Received cfg m.st m.ev buf rx (.bakerSign h)) (u : Upl)
      (q2 : UInt8) (first msg : Bytes) (ref : MemRef)
      (hu : Completes m.env m.st .baking (buf.getD 2 0) (buf.getD 3 0) (apduPayload buf) u q2 first msg ref)
      (b : Bytes) (it : Item) (hb : m.st.main.read = .ok b) (hi : consensusItem msg = some it)
      (hl : it.level < 2 ^ 31) (hlt : Item.lt (WaterMark.decode b).item it) :
      Sets cfg m .main (UInt32.ofNat it.level)

/-- As `Sets`, with the bytes written. -/
inductive Stores (cfg : Config) (m : Moment) : Mark → Bytes → Prop where
  | resetMain (buf : Bytes) (rx : Nat) (p : Bytes) (h : Received cfg m.st m.ev buf rx .reset)
      (hp : apduPayload buf = some p) (hl : 4 ≤ p.length) : Stores cfg m .main (hwmBytes (u32OfBe (p.take 4)))
  | resetTest (buf : Bytes) (rx : Nat) (p : Bytes) (h : Received cfg m.st m.ev buf rx .reset)
      (hp : apduPayload buf = some p) (hl : 4 ≤ p.length) : Stores cfg m .test (hwmBytes (u32OfBe (p.take 4)))
  | resetChain (buf : Bytes) (rx : Nat) (p : Bytes) (h : Received cfg m.st m.ev buf rx .reset)
      (hp : apduPayload buf = some p) (hl : 4 ≤ p.length) (hc : m.st.chain.read = .err .uninitialized) :
      Stores cfg m .chain (chainIdEncode mainnetChainId)
  | setupMain (k : PathAndCurve) (a : Addr) (l t : UInt32) (ch : ChainID)
      (h : Approves m.st m.ev (.setup k a l t ch)) : Stores cfg m .main (hwmBytes l)
  | setupTest (k : PathAndCurve) (a : Addr) (l t : UInt32) (ch : ChainID)
      (h : Approves m.st m.ev (.setup k a l t ch)) : Stores cfg m .test (hwmBytes t)
  | setupChain (k : PathAndCurve) (a : Addr) (l t : UInt32) (ch : ChainID)
      (h : Approves m.st m.ev (.setup k a l t ch)) : Stores cfg m .chain (chainIdEncode ch.toU32)
  | sign (h : Bool) (buf : Bytes) (rx : Nat) (hrec : Received cfg m.st m.ev buf rx (.bakerSign h)) (u : Upl)
      (q2 : UInt8) (first msg : Bytes) (ref : MemRef)
      (hu : Completes m.env m.st .baking (buf.getD 2 0) (buf.getD 3 0) (apduPayload buf) u q2 first msg ref)
      (b : Bytes) (it : Item) (hb : m.st.main.read = .ok b) (hi : consensusItem msg = some it)
      (hl : it.level < 2 ^ 31) (hlt : Item.lt (WaterMark.decode b).item it) :
      Stores cfg m .main (WaterMark.ofItem it).encode

theorem hwmBytes_level (l : UInt32) : (WaterMark.decode (hwmBytes l)).level = l := by
  rw [hwmBytes, WaterMark.decode_encode]
  rfl

theorem WaterMark.ofItem_level (it : Item) : (WaterMark.ofItem it).level = UInt32.ofNat it.level := by
  unfold WaterMark.ofItem
  split <;> rfl

theorem Stores.sets {cfg : Config} {m : Moment} {r : Mark} {b : Bytes} (h : Stores cfg m r b) :
    Sets cfg m r (r.value b) := by
  cases h with
  | resetMain buf rx p h hp hl =>
    simp only [Mark.value, hwmBytes_level]; exact .resetMain buf rx p h hp hl
  | resetTest buf rx p h hp hl =>
    simp only [Mark.value, hwmBytes_level]; exact .resetTest buf rx p h hp hl
  | resetChain buf rx p h hp hl hc =>
    simp only [Mark.value, chainIdDecode_encode]; exact .resetChain buf rx p h hp hl hc
  | setupMain k a l t ch h => simp only [Mark.value, hwmBytes_level]; exact .setupMain k a l t ch h
  | setupTest k a l t ch h => simp only [Mark.value, hwmBytes_level]; exact .setupTest k a l t ch h
  | setupChain k a l t ch h => simp only [Mark.value, chainIdDecode_encode]; exact .setupChain k a l t ch h
  | sign h buf rx hrec u q2 first msg ref hu b it hb hi hl hlt =>
    simp only [Mark.value, WaterMark.decode_encode, WaterMark.ofItem_level]
    exact .sign h buf rx hrec u q2 first msg ref hu b it hb hi hl hlt

theorem Sets.stores {cfg : Config} {m : Moment} {r : Mark} {v : UInt32} (h : Sets cfg m r v) :
    ∃ b, Stores cfg m r b ∧ r.value b = v := by
  cases h with
  | resetMain buf rx p h hp hl => exact ⟨_, .resetMain buf rx p h hp hl, hwmBytes_level _⟩
  | resetTest buf rx p h hp hl => exact ⟨_, .resetTest buf rx p h hp hl, hwmBytes_level _⟩
  | resetChain buf rx p h hp hl hc => exact ⟨_, .resetChain buf rx p h hp hl hc, chainIdDecode_encode _⟩
  | setupMain k a _ _ _ h => exact ⟨_, .setupMain k a _ _ _ h, hwmBytes_level _⟩
  | setupTest k a _ _ _ h => exact ⟨_, .setupTest k a _ _ _ h, hwmBytes_level _⟩
  | setupChain k a l t ch h => exact ⟨_, .setupChain k a l t ch h, chainIdDecode_encode _⟩
  | sign h buf rx hrec u q2 first msg ref hu b it hb hi hl hlt =>
    refine ⟨_, .sign h buf rx hrec u q2 first msg ref hu b it hb hi hl hlt, ?_⟩
    simp only [Mark.value, WaterMark.decode_encode, WaterMark.ofItem_level]

theorem Stores.length {cfg : Config} {m : Moment} {r : Mark} {b : Bytes} (h : Stores cfg m r b) :
    b.length = slotSize := by
  cases h <;> first | exact WaterMark.encode_length _ | exact chainId_length _

/-- The event is answered with the status word 0x9000. -/
def Moment.Success (m : Moment) : Prop := ∃ d, m.out.reply = some (d ++ [0x90, 0x00])

theorem Res.Bad.not_success {r : Res} {m : Moment} (h : r.Bad) (ho : m.out.reply = r.deliver.2.reply) : ¬ m.Success := by
  rintro ⟨d, hd⟩
  rw [ho] at hd
  exact h.reply d hd

theorem Received.unique {cfg : Config} {s : Dev} {ev : Event} {buf buf' : Bytes} {rx rx' : Nat} {c c' : Cmd}
    (h : Received cfg s ev buf rx c) (h' : Received cfg s ev buf' rx' c') : buf = buf' ∧ rx = rx' ∧ c = c' := by
  have := h.ev
  rw [h'.ev] at this
  cases this
  obtain ⟨i1, e1, c1⟩ := h.cmd
  obtain ⟨i2, e2, c2⟩ := h'.cmd
  rw [e1] at e2
  cases e2
  rw [c1] at c2
  exact ⟨rfl, rfl, Option.some.inj c2⟩

theorem Received.not_approves {cfg : Config} {s : Dev} {ev : Event} {buf : Bytes} {rx : Nat} {c : Cmd} {v : View}
    (h : Received cfg s ev buf rx c) (h' : Approves s ev v) : False := by
  have := h.ev
  rw [h'.ev] at this
  cases this

/-- An event asks for at most one contents of a record. -/
theorem Stores.unique {cfg : Config} {m : Moment} {r : Mark} {b b' : Bytes} (h : Stores cfg m r b)
    (h' : Stores cfg m r b') : b = b' := by
  cases h with
  | resetMain buf rx p h hp hl =>
    cases h' with
    | resetMain buf' rx' p' h' hp' hl' =>
      obtain ⟨rfl, _, _⟩ := h.unique h'
      rw [hp] at hp'
      cases hp'
      rfl
    | setupMain k a l t ch h' => exact (h.not_approves h').elim
    | sign _ _ _ h' => cases (h.unique h').2.2
  | resetTest buf rx p h hp hl =>
    cases h' with
    | resetTest buf' rx' p' h' hp' hl' =>
      obtain ⟨rfl, _, _⟩ := h.unique h'
      rw [hp] at hp'
      cases hp'
      rfl
    | setupTest k a l t ch h' => exact (h.not_approves h').elim
  | resetChain buf rx p h hp hl hc =>
    cases h' with
    | resetChain => rfl
    | setupChain k a l t ch h' => exact (h.not_approves h').elim
  | setupMain k a l t ch h =>
    cases h' with
    | resetMain _ _ _ h' => exact (h'.not_approves h).elim
    | setupMain k' a' l' t' ch' h' => cases h.unique h'; rfl
    | sign _ _ _ h' => exact (h'.not_approves h).elim
  | setupTest k a l t ch h =>
    cases h' with
    | resetTest _ _ _ h' => exact (h'.not_approves h).elim
    | setupTest k' a' l' t' ch' h' => cases h.unique h'; rfl
  | setupChain k a l t ch h =>
    cases h' with
    | resetChain _ _ _ h' => exact (h'.not_approves h).elim
    | setupChain k' a' l' t' ch' h' => cases h.unique h'; rfl
  | sign h buf rx hrec u q2 first msg ref hu b it hb hi hl hlt =>
    cases h' with
    | resetMain _ _ _ h' => cases (hrec.unique h').2.2
    | setupMain k a l t ch h' => exact (hrec.not_approves h').elim
    | sign h' buf' rx' hrec' u' q2' first' msg' ref' hu' b' it' hb' hi' hl' hlt' =>
      obtain ⟨rfl, _, _⟩ := hrec.unique hrec'
      have he := hu.eq
      rw [hu'.eq] at he
      cases he
      rw [hi] at hi'
      cases hi'
      rfl

/-- What one event does to a record. -/
inductive MarkStep (cfg : Config) (m : Moment) (r : Mark) : Prop where
  | same (h : (m.next cfg).mark r = m.st.mark r) (hn : ∀ b, Stores cfg m r b → ¬ m.Success)
  | relaunch (he : m.ev = .relaunch) (h : (m.next cfg).mark r = (m.st.mark r).relaunch)
      (hn : ∀ b, ¬ Stores cfg m r b)
  | write (b : Bytes) (hs : Stores cfg m r b)
      (h : (m.next cfg).mark r = ((m.st.mark r).write (m.env.markF r) b).1)
      (hok : m.Success → ((m.st.mark r).write (m.env.markF r) b).2 = .ok)

theorem Moment.step_reset {cfg : Config} {m : Moment} (hout : m.out = (m.st.step cfg m.env m.ev).2) {buf : Bytes}
    {rx : Nat} (hrec : Received cfg m.st m.ev buf rx .reset) (r : Mark) : MarkStep cfg m r := by
  have hst : m.next cfg = _ := congrArg Prod.fst (hrec.step m.env)
  have ho : m.out.reply = _ := (congrArg Output.reply hout).trans (congrArg (fun p => p.2.reply) (hrec.step m.env))
  have hfl := (m.st.exec cfg m.env .reset (buf.getD 2 0) (buf.getD 3 0) (apduPayload buf)).deliver_flash
  rw [← hst] at hfl
  have hex : m.st.exec cfg m.env .reset (buf.getD 2 0) (buf.getD 3 0) (apduPayload buf) =
      m.st.cmdReset m.env (apduPayload buf) := rfl
  rw [hex] at hfl ho
  rcases m.st.cmdReset_cases m.env (apduPayload buf) with hf | ⟨p, hp, hl, he⟩
  · refine .same ?_ fun b _ => hf.bad.not_success ho
    rw [hf.1] at hfl
    cases r
    · exact hfl.main
    · exact hfl.test
    · exact hfl.chain
  · rw [he] at hfl ho
    have hnb : ∀ {r' : Res}, r' = m.st.resetHwm m.env (u32OfBe (p.take 4)) → r'.Bad → ¬ m.Success := by
      intro r' hr' hb
      subst hr'
      exact hb.not_success ho
    cases m.st.resetHwm_cases m.env (u32OfBe (p.take 4)) with
    | main hw hst' hb =>
      rw [hst'] at hfl
      cases r with
      | main => exact .write _ (.resetMain buf rx p hrec hp hl) hfl.main fun hs => absurd hs (hnb rfl hb)
      | test => exact .same hfl.test fun _ _ => hnb rfl hb
      | chain => exact .same hfl.chain fun _ _ => hnb rfl hb
    | test hm hw hst' hb =>
      rw [hst'] at hfl
      cases r with
      | main => exact .write _ (.resetMain buf rx p hrec hp hl) hfl.main fun _ => hm
      | test => exact .write _ (.resetTest buf rx p hrec hp hl) hfl.test fun hs => absurd hs (hnb rfl hb)
      | chain => exact .same hfl.chain fun _ _ => hnb rfl hb
    | chain hm ht hst' hc =>
      rw [hst'] at hfl
      cases r with
      | main => exact .write _ (.resetMain buf rx p hrec hp hl) hfl.main fun _ => hm
      | test => exact .write _ (.resetTest buf rx p hrec hp hl) hfl.test fun _ => ht
      | chain =>
        refine .same hfl.chain fun b hb => ?_
        rcases hc with ⟨_, hb'⟩ | ⟨_, hu, _, _⟩
        · exact hnb rfl hb'
        · cases hb with
          | resetChain _ _ _ _ _ _ hc => exact absurd hc hu
          | setupChain _ _ _ _ _ ha => exact (hrec.not_approves ha).elim
    | init hm ht hu hst' hc =>
      rw [hst'] at hfl
      cases r with
      | main => exact .write _ (.resetMain buf rx p hrec hp hl) hfl.main fun _ => hm
      | test => exact .write _ (.resetTest buf rx p hrec hp hl) hfl.test fun _ => ht
      | chain =>
        refine .write _ (.resetChain buf rx p hrec hp hl hu) hfl.chain fun hs => ?_
        rcases hc with ⟨_, hb⟩ | ⟨hw, _⟩
        · exact absurd hs (hnb rfl hb)
        · exact hw

theorem Moment.step_setup {cfg : Config} {m : Moment} (hout : m.out = (m.st.step cfg m.env m.ev).2)
    {k : PathAndCurve} {a : Addr} {l t : UInt32} {ch : ChainID} (ha : Approves m.st m.ev (.setup k a l t ch))
    (r : Mark) : MarkStep cfg m r := by
  obtain ⟨hfl, _, hrep⟩ := ha.step (cfg := cfg) m.env
  have ho : m.out.reply = _ := (congrArg Output.reply hout).trans hrep
  have hfl : SameFlash _ (m.next cfg) := hfl
  have hnb : (View.accept m.env (.setup k a l t ch) m.st.idle).Bad → ¬ m.Success := fun hb => hb.not_success ho
  cases View.accept_setup m.env k a l t ch m.st.idle with
  | none hst hb =>
    rw [hst] at hfl
    refine .same ?_ fun _ _ => hnb hb
    cases r
    · exact hfl.main
    · exact hfl.test
    · exact hfl.chain
  | key hw hst hb =>
    rw [hst] at hfl
    refine .same ?_ fun _ _ => hnb hb
    cases r
    · exact hfl.main
    · exact hfl.test
    · exact hfl.chain
  | main hk hw hst hb =>
    rw [hst] at hfl
    cases r with
    | main => exact .write _ (.setupMain k a l t ch ha) hfl.main fun hs => absurd hs (hnb hb)
    | test => exact .same hfl.test fun _ _ => hnb hb
    | chain => exact .same hfl.chain fun _ _ => hnb hb
  | test hk hm hw hst hb =>
    rw [hst] at hfl
    cases r with
    | main => exact .write _ (.setupMain k a l t ch ha) hfl.main fun _ => hm
    | test => exact .write _ (.setupTest k a l t ch ha) hfl.test fun hs => absurd hs (hnb hb)
    | chain => exact .same hfl.chain fun _ _ => hnb hb
  | chain hk hm ht hst hc =>
    rw [hst] at hfl
    cases r with
    | main => exact .write _ (.setupMain k a l t ch ha) hfl.main fun _ => hm
    | test => exact .write _ (.setupTest k a l t ch ha) hfl.test fun _ => ht
    | chain =>
      refine .write _ (.setupChain k a l t ch ha) hfl.chain fun hs => ?_
      rcases hc with ⟨_, hb⟩ | ⟨hw, _⟩
      · exact absurd hs (hnb hb)
      · exact hw

/-- What a baking signing command does to the records. -/
theorem Moment.step_bakerSign {cfg : Config} {m : Moment} (hout : m.out = (m.st.step cfg m.env m.ev).2) {buf : Bytes}
    {rx : Nat} {hh : Bool} (hrec : Received cfg m.st m.ev buf rx (.bakerSign hh)) (r : Mark) : MarkStep cfg m r := by
  have hst : m.next cfg = _ := congrArg Prod.fst (hrec.step m.env)
  have ho : m.out.reply = _ := (congrArg Output.reply hout).trans (congrArg (fun p => p.2.reply) (hrec.step m.env))
  have hfl := (m.st.exec cfg m.env (.bakerSign hh) (buf.getD 2 0) (buf.getD 3 0) (apduPayload buf)).deliver_flash
  rw [← hst] at hfl
  have hother : ∀ r' : Mark, r' ≠ .main → ∀ b, ¬ Stores cfg m r' b := by
    intro r' hr' b hb
    cases hb with
    | resetTest _ _ _ h => cases (hrec.unique h).2.2
    | resetChain _ _ _ h => cases (hrec.unique h).2.2
    | setupTest _ _ _ _ _ h => exact hrec.not_approves h
    | setupChain _ _ _ _ _ h => exact hrec.not_approves h
    | _ => exact hr' rfl
  have hmain : MarkStep cfg m .main ∧ (m.next cfg).test = m.st.test ∧ (m.next cfg).chain = m.st.chain := by
    by_cases hex : ∃ b, Stores cfg m .main b
    · obtain ⟨b0, hs⟩ := hex
      cases hs with
      | resetMain _ _ _ h => cases (hrec.unique h).2.2
      | setupMain _ _ _ _ _ h => exact (hrec.not_approves h).elim
      | sign h' buf' rx' hrec' u q2 first msg ref hu b it hb hi hl hlt =>
        obtain ⟨rfl, rfl, hc⟩ := hrec.unique hrec'
        cases hc
        have hs : Stores cfg m .main (WaterMark.ofItem it).encode :=
          .sign hh buf rx hrec u q2 first msg ref hu b it hb hi hl hlt
        have hex : m.st.exec cfg m.env (.bakerSign hh) (buf.getD 2 0) (buf.getD 3 0) (apduPayload buf) =
            (let f := Dev.bakerSign m.env hh q2 first msg ref (m.st.withUpload m.st.path u)
             { f with st := { f.st with upl := f.st.upl.drop .baking } }) := by
          simp only [Dev.exec, Dev.cmdUpload, hu.eq]
          rfl
        rw [hex] at hfl ho
        have hbad : ∀ {t : Dev}, (Dev.bakerSign m.env hh q2 first msg ref (m.st.withUpload m.st.path u)).Fails t →
            ¬ m.Success := by
          intro t hf
          refine Res.Bad.not_success ?_ ho
          exact ⟨hf.2.1, hf.2.2⟩
        rcases (m.st.withUpload m.st.path u).bakerSign_cases m.env hh q2 first msg ref with
          hf | ⟨k, digest, hc, hp, hk, hd, ⟨hm, he⟩ | ⟨rem, rfl, he⟩⟩
        · refine ⟨.same ?_ fun _ _ => hbad hf, ?_, ?_⟩
          · show (m.next cfg).main = m.st.main
            rw [hfl.main]
            simp only [hf.1]
            rfl
          · rw [hfl.test]
            simp only [hf.1]
            rfl
          · rw [hfl.chain]
            simp only [hf.1]
            rfl
        · rw [he] at hbad
          simp only [he] at hfl
          rcases (m.st.withUpload m.st.path u).autoSign_cases m.env hh digest msg (specDecide msg)
            (fun _ _ => specDecide_error) with hf | ⟨b', w, hb', hdec, hf⟩
          · refine ⟨.same ?_ fun _ _ => hbad hf, ?_, ?_⟩
            · show (m.next cfg).main = m.st.main
              rw [hfl.main]
              simp only [hf.1]
              rfl
            · rw [hfl.test]
              simp only [hf.1]
              rfl
            · rw [hfl.chain]
              simp only [hf.1]
              rfl
          · obtain ⟨it', hi', _, _, rfl⟩ := specDecide_ok hdec
            rw [hi] at hi'
            cases hi'
            rcases hf with hf | ⟨hw, k', sig, _, _, hre⟩
            · refine ⟨.write _ hs ?_ fun h => absurd h (hbad hf), ?_, ?_⟩
              · show (m.next cfg).main = _
                rw [hfl.main]
                simp only [hf.1]
                rfl
              · rw [hfl.test]
                simp only [hf.1]
                rfl
              · rw [hfl.chain]
                simp only [hf.1]
                rfl
            · refine ⟨.write _ hs ?_ fun _ => hw, ?_, ?_⟩
              · show (m.next cfg).main = _
                rw [hfl.main]
                simp only [hre]
                rfl
              · rw [hfl.test]
                simp only [hre]
                rfl
              · rw [hfl.chain]
                simp only [hre]
                rfl
        · have := consensusItem_magic hi
          cases this
    · have hn : ∀ b, Stores cfg m .main b → ¬ m.Success := fun b hb => absurd ⟨b, hb⟩ hex
      cases m.st.exec_cases cfg m.env (.bakerSign hh) (buf.getD 2 0) (buf.getD 3 0) (apduPayload buf) with
      | still p u hs _ =>
        rw [hs.1] at hfl
        exact ⟨.same hfl.main hn, hfl.test, hfl.chain⟩
      | opened v p u u' hop hout' hs hst' _ =>
        have h2 := (m.st.withUpload p u).show_flash m.env v
        rw [hst'] at hfl
        exact ⟨.same (hfl.main.trans h2.main) hn, hfl.test.trans h2.test, hfl.chain.trans h2.chain⟩
      | reset p hc hp hl hr => cases hc
      | auto h' u u' q2 first msg ref k digest hc hu hcv hp hk hd hmg hout' hs hst' =>
        cases hc
        simp only [hst'] at hfl
        rcases (m.st.withUpload m.st.path u).autoSign_cases m.env hh digest msg (specDecide msg)
          (fun _ _ => specDecide_error) with hf | ⟨b', w, hb', hdec, hf⟩
        · simp only [hf.1] at hfl
          exact ⟨.same hfl.main hn, hfl.test, hfl.chain⟩
        · obtain ⟨it, hi, hl, hlt, rfl⟩ := specDecide_ok hdec
          exact absurd ⟨_, .sign hh buf rx hrec u q2 first msg ref hu b' it hb' hi hl hlt⟩ hex
  cases r with
  | main => exact hmain.1
  | test => exact .same hmain.2.1 fun b hb => absurd hb (hother .test (by decide) b)
  | chain => exact .same hmain.2.2 fun b hb => absurd hb (hother .chain (by decide) b)

/-- What any event does to a record. -/
theorem Moment.step_mark {cfg : Config} {m : Moment} (hout : m.out = (m.st.step cfg m.env m.ev).2) (r : Mark) :
    MarkStep cfg m r := by
  by_cases h1 : ∃ buf rx, Received cfg m.st m.ev buf rx .reset
  · obtain ⟨buf, rx, h1⟩ := h1
    exact step_reset hout h1 r
  by_cases h2 : ∃ k a l t ch, Approves m.st m.ev (.setup k a l t ch)
  · obtain ⟨k, a, l, t, ch, h2⟩ := h2
    exact step_setup hout h2 r
  by_cases h3 : ∃ buf rx hh, Received cfg m.st m.ev buf rx (.bakerSign hh)
  · obtain ⟨buf, rx, hh, h3⟩ := h3
    exact step_bakerSign hout h3 r
  have hn : ∀ b, ¬ Stores cfg m r b := by
    intro b hb
    cases hb with
    | resetMain _ _ _ h => exact h1 ⟨_, _, h⟩
    | resetTest _ _ _ h => exact h1 ⟨_, _, h⟩
    | resetChain _ _ _ h => exact h1 ⟨_, _, h⟩
    | setupMain _ _ _ _ _ h => exact h2 ⟨_, _, _, _, _, h⟩
    | setupTest _ _ _ _ _ h => exact h2 ⟨_, _, _, _, _, h⟩
    | setupChain _ _ _ _ _ h => exact h2 ⟨_, _, _, _, _, h⟩
    | sign _ _ _ h => exact h3 ⟨_, _, _, h⟩
  have hsame : SameFlash m.st (m.next cfg) → MarkStep cfg m r := by
    intro h
    refine .same ?_ fun b hb => absurd hb (hn b)
    cases r
    · exact h.main
    · exact h.test
    · exact h.chain
  cases m.st.step_cases cfg m.env m.ev with
  | still h _ => exact hsame h
  | relaunch h he _ =>
    refine .relaunch he ?_ hn
    cases r
    · exact h.main
    · exact h.test
    · exact h.chain
  | accept v ha h _ _ =>
    have h : SameFlash _ (m.next cfg) := h
    rcases v.accept_still_or m.env m.st.idle with hst | ⟨k, a, l, t, ch, rfl⟩
    · refine .same ?_ fun b hb => absurd hb (hn b)
      cases r
      · exact h.main.trans hst.1
      · exact h.test.trans hst.2.1
      · exact h.chain.trans hst.2.2
    · exact absurd ⟨_, _, _, _, _, ha⟩ h2
  | command buf rx c hrec he =>
    have hfl := (m.st.exec cfg m.env c (buf.getD 2 0) (buf.getD 3 0) (apduPayload buf)).deliver_flash
    rw [he] at hfl
    have hfl : SameFlash _ (m.next cfg) := hfl
    cases m.st.exec_cases cfg m.env c (buf.getD 2 0) (buf.getD 3 0) (apduPayload buf) with
    | still p u hs _ =>
      rw [hs.1] at hfl
      exact hsame ⟨hfl.1, hfl.2, hfl.3, hfl.4⟩
    | opened v p u u' hop hout' hs hst' _ =>
      have h2 := (m.st.withUpload p u).show_flash m.env v
      rw [hst'] at hfl
      exact hsame ⟨hfl.1.trans h2.1, hfl.2.trans h2.2, hfl.3.trans h2.3, hfl.4.trans h2.4⟩
    | reset p hc hp hl hr => cases hc; exact absurd ⟨_, _, hrec⟩ h1
    | auto h' u u' q2 first msg ref k digest hc => cases hc; exact absurd ⟨_, _, _, hrec⟩ h3

/-! ### Contents of a record along histories -/

/-- The record `r` was last set to `v` in the history `past`: some event asked for it, and no later event that asks for
a value of the record was answered with success. -/
def LastSet (cfg : Config) (past : List Moment) (r : Mark) (v : UInt32) : Prop :=
  ∃ a m b, past = a ++ m :: b ∧ Sets cfg m r v ∧ ∀ m' ∈ b, ∀ v', Sets cfg m' r v' → ¬ m'.Success

/-- No event of the history set the record `r` with success. -/
def NeverSet (cfg : Config) (past : List Moment) (r : Mark) : Prop := ∀ m ∈ past, ∀ v, Sets cfg m r v → ¬ m.Success

/-- What the contents of a record say about the history. -/
def Cell.Tells (cfg : Config) (past : List Moment) (r : Mark) : Cell → Prop
  | .blank => NeverSet cfg past r
  | .val b => LastSet cfg past r (r.value b)
  | .broken => ∃ m ∈ past, ∃ v, Sets cfg m r v ∧ m.env.markF r ≠ .done

theorem LastSet.snoc {cfg : Config} {past : List Moment} {r : Mark} {v : UInt32} {m : Moment}
    (h : LastSet cfg past r v) (hm : ∀ v, Sets cfg m r v → ¬ m.Success) : LastSet cfg (past ++ [m]) r v := by
  obtain ⟨a, m0, b, rfl, ha, hb⟩ := h
  refine ⟨a, m0, b ++ [m], by simp, ha, ?_⟩
  intro m' hm' o
  rcases List.mem_append.mp hm' with h | h
  · exact hb m' h o
  · rw [List.mem_singleton.mp h]
    exact hm o

theorem NeverSet.snoc {cfg : Config} {past : List Moment} {r : Mark} {m : Moment}
    (h : NeverSet cfg past r) (hm : ∀ v, Sets cfg m r v → ¬ m.Success) : NeverSet cfg (past ++ [m]) r := by
  intro m' hm'
  rcases List.mem_append.mp hm' with h' | h'
  · exact h m' h'
  · rw [List.mem_singleton.mp h']
    exact hm

theorem Cell.Tells.snoc {cfg : Config} {past : List Moment} {r : Mark} {m : Moment} {c : Cell}
    (h : c.Tells cfg past r) (hm : ∀ v, Sets cfg m r v → ¬ m.Success) : c.Tells cfg (past ++ [m]) r := by
  cases c with
  | blank => exact NeverSet.snoc h hm
  | val b => exact LastSet.snoc h hm
  | broken =>
    obtain ⟨m', h1, h2⟩ := h
    exact ⟨m', by simp [h1], h2⟩

/-- One event: the contents afterwards. -/
theorem MarkStep.cell {cfg : Config} {m : Moment} {r : Mark} (h : MarkStep cfg m r) {n : Nat} {c : Cell}
    (hc : (m.st.mark r).Holds n c) (hf : (m.env.markF r).Sound) (hn : n + 1 < 2 ^ 64) :
    ∃ c', ((m.next cfg).mark r).Holds (n + 1) c' ∧
      ((c' = c ∧ ∀ b, Stores cfg m r b → ¬ m.Success) ∨
        ∃ b, Stores cfg m r b ∧ (m.Success → c' = .val b) ∧
          (c' = c ∨ c' = .val b ∨ (c' = .broken ∧ m.env.markF r ≠ .done))) := by
  cases h with
  | same h hs => exact ⟨c, by rw [h]; exact hc.mono (by omega), .inl ⟨rfl, hs⟩⟩
  | relaunch he h hs =>
    exact ⟨c, by rw [h]; exact hc.relaunch.mono (by omega), .inl ⟨rfl, fun b hb => absurd hb (hs b)⟩⟩
  | write b hs h hok =>
    obtain ⟨c', h1, h2, h3⟩ := hc.write (b := b) hn hs.length hf
    refine ⟨c', by rw [h]; exact h1, .inr ⟨b, hs, fun hsucc => ?_, ?_⟩⟩
    · rcases h2 with ⟨_, h2⟩ | ⟨h2, _⟩
      · exact h2
      · exact absurd (hok hsucc) h2
    · rcases h2 with ⟨_, h2⟩ | ⟨h2, h4 | h4 | h4⟩
      · exact .inr (.inl h2)
      · exact .inl h4
      · exact .inr (.inl h4)
      · by_cases hcb : c = .broken
        · exact .inl (h4.trans hcb.symm)
        · refine .inr (.inr ⟨h4, fun hd => h2 ?_⟩)
          rw [hd]
          exact hc.write_done hcb

/-- The contents of a record along a history from the factory state. -/
theorem history_mark {cfg : Config} {new : NewDevice} {es : List (Env × Event)} (r : Mark)
    (hes : ∀ e ∈ es, (e.1.markF r).Sound) (hlen : es.length < 2 ^ 64) :
    ∃ c, (((Dev.factory new).run cfg es).1.mark r).Holds es.length c ∧
      c.Tells cfg ((Dev.factory new).trace cfg es) r := by
  induction es using list_snoc_induction with
  | nil =>
    refine ⟨.blank, ?_, fun m hm => by cases hm⟩
    cases r <;> exact Store.Holds.fresh (by omega)
  | snoc es e ih =>
    simp only [List.length_append, List.length_singleton] at hlen
    obtain ⟨c, h, hk⟩ := ih (fun e he => hes e (by simp [he])) (by omega)
    rw [Dev.run_append, Dev.trace_append]
    generalize ((Dev.factory new).run cfg es).1 = s at *
    obtain ⟨env, ev⟩ := e
    have hms := Moment.step_mark (cfg := cfg) (m := ⟨s, env, ev, (s.step cfg env ev).2⟩) rfl r
    obtain ⟨c', h', hstep⟩ := hms.cell h (hes (env, ev) (by simp)) (by omega)
    refine ⟨c', by simpa [Dev.run, Moment.next] using h', ?_⟩
    simp only [Dev.trace]
    rcases hstep with ⟨rfl, hn⟩ | ⟨b, hs, hsucc, hc⟩
    · refine hk.snoc fun v hv => ?_
      obtain ⟨b, hb, _⟩ := hv.stores
      exact hn b hb
    · by_cases hsu : Moment.Success ⟨s, env, ev, (s.step cfg env ev).2⟩
      · rw [hsucc hsu]
        exact ⟨_, _, [], rfl, hs.sets, by simp⟩
      · rcases hc with rfl | rfl | ⟨rfl, hc⟩
        · exact hk.snoc fun _ _ => hsu
        · exact ⟨_, _, [], rfl, hs.sets, by simp⟩
        · exact ⟨_, by simp, _, hs.sets, hc⟩

/-- At a moment of a history. -/
theorem moment_mark {cfg : Config} {new : NewDevice} {es : List (Env × Event)} {past rest : List Moment} {m : Moment}
    (r : Mark) (hes : ∀ e ∈ es, (e.1.markF r).Sound) (hlen : es.length < 2 ^ 64)
    (h : (Dev.factory new).trace cfg es = past ++ m :: rest) :
    ∃ n c, n + 1 < 2 ^ 64 ∧ (m.st.mark r).Holds n c ∧ c.Tells cfg past r ∧ (m.env.markF r).Sound ∧
      m.out = (m.st.step cfg m.env m.ev).2 := by
  obtain ⟨ea, eb, rfl, hla, rfl, hst, ho, _⟩ := Dev.trace_split h
  simp only [List.length_append, List.length_cons] at hlen
  obtain ⟨c, h1, h2⟩ := history_mark (cfg := cfg) (new := new) (es := ea) r (fun e he => hes e (by simp [he]))
    (by omega)
  rw [← hst] at h1
  exact ⟨_, c, by omega, h1, h2, hes (m.env, m.ev) (by simp), ho⟩

/-! ### C47 -/

/-- Instruction 0x08 of the baking build. -/
abbrev QueriesMain (cfg : Config) (m : Moment) : Prop := ∃ buf rx, Received cfg m.st m.ev buf rx .queryMain

/-- Instruction 0x0B of the baking build. -/
abbrev QueriesAll (cfg : Config) (m : Moment) : Prop := ∃ buf rx, Received cfg m.st m.ev buf rx .queryAll

theorem Moment.query_main {cfg : Config} {m : Moment} (hout : m.out = (m.st.step cfg m.env m.ev).2)
    (hq : QueriesMain cfg m) : m.out = m.st.cmdQueryMain.deliver.2 := by
  obtain ⟨buf, rx, hrec⟩ := hq
  rw [hout, hrec.step m.env]
  rfl

theorem Moment.query_all {cfg : Config} {m : Moment} (hout : m.out = (m.st.step cfg m.env m.ev).2)
    (hq : QueriesAll cfg m) : m.out = m.st.cmdQueryAll.deliver.2 := by
  obtain ⟨buf, rx, hrec⟩ := hq
  rw [hout, hrec.step m.env]
  rfl

/-- C47, the main query: along every history, the query of the main watermark is answered with the level that the
watermark was last set to by a reset, an approved setup or a signature request; with 0xffffffff if it was never set
with success; or not with success, and then an earlier write of the record did not complete. -/
theorem C47_main_query (cfg : Config) (new : NewDevice) (es : List (Env × Event)) (hes : ∀ e ∈ es, e.1.mainF.Sound)
    (hlen : es.length < 2 ^ 64) (past rest : List Moment) (m : Moment)
    (h : (Dev.factory new).trace cfg es = past ++ m :: rest) (hq : QueriesMain cfg m) :
    (∃ level, LastSet cfg past .main level ∧ m.out.reply = some (be32 level ++ [0x90, 0x00])) ∨
    (NeverSet cfg past .main ∧ m.out.reply = some [0xff, 0xff, 0xff, 0xff, 0x90, 0x00]) ∨
    (¬ m.Success ∧ ∃ m' ∈ past, ∃ v, Sets cfg m' .main v ∧ m'.env.mainF ≠ .done) := by
  obtain ⟨n, c, hn, hc, ht, hf, ho⟩ := moment_mark .main hes hlen h
  have hr := hc.read
  have ho := m.query_main ho hq
  have hm : m.st.mark .main = m.st.main := rfl
  rw [hm] at hr
  unfold Dev.cmdQueryMain at ho
  cases c with
  | blank =>
    rw [(hr : _ = _)] at ho
    exact .inr (.inl ⟨ht, by rw [ho]; rfl⟩)
  | val b =>
    rw [(hr : _ = _)] at ho
    exact .inl ⟨_, ht, by rw [ho]; rfl⟩
  | broken =>
    refine .inr (.inr ⟨?_, ht⟩)
    rintro ⟨d, hd⟩
    rcases (hr : _ ∨ _) with hr | hr <;> rw [hr] at ho <;> rw [ho] at hd
    · cases hd
    · exact Res.Bad.reply (m.st.fail_fails .executionError).bad d hd

/-- C47, the full query, what holds: when the three records have been set with success, it is answered with the level
the main watermark was last set to, the level the test watermark was last set to and the chain id last set; when one of
them was never set with success, and none is damaged, it is either that or the defaults.
What is missing: that the main level is reported whenever it was set. That is false: see
`C47_partly_set_device_reports_defaults`. -/
theorem C47_full_query_partial (cfg : Config) (new : NewDevice) (es : List (Env × Event))
    (hes : ∀ e ∈ es, ∀ r, (e.1.markF r).Sound) (hlen : es.length < 2 ^ 64) (past rest : List Moment) (m : Moment)
    (h : (Dev.factory new).trace cfg es = past ++ m :: rest) (hq : QueriesAll cfg m) :
    (∃ l t ch, LastSet cfg past .main l ∧ LastSet cfg past .test t ∧ LastSet cfg past .chain ch ∧
      m.out.reply = some (be32 l ++ be32 t ++ be32 ch ++ [0x90, 0x00])) ∨
    ((∃ r, NeverSet cfg past r) ∧
      m.out.reply = some ([0xff, 0xff, 0xff, 0xff] ++ [0xff, 0xff, 0xff, 0xff] ++ [0x7a, 0x06, 0xa7, 0x70] ++
        [0x90, 0x00])) ∨
    (¬ m.Success ∧ ∃ m' ∈ past, ∃ r v, Sets cfg m' r v ∧ m'.env.markF r ≠ .done) := by
  obtain ⟨_, c1, _, hc1, ht1, _, ho⟩ := moment_mark .main (fun e he => hes e he .main) hlen h
  obtain ⟨_, c2, _, hc2, ht2, _, _⟩ := moment_mark .test (fun e he => hes e he .test) hlen h
  obtain ⟨_, c3, _, hc3, ht3, _, _⟩ := moment_mark .chain (fun e he => hes e he .chain) hlen h
  have ho := m.query_all ho hq
  have hr1 : c1.Reads m.st.main.read := hc1.read
  have hr2 : c2.Reads m.st.test.read := hc2.read
  have hr3 : c3.Reads m.st.chain.read := hc3.read
  have bad : ∀ x, m.st.allHwm = x → (x = .panic ∨ x = .err .crc) → ¬ m.Success := by
    rintro x hx hb ⟨d, hd⟩
    unfold Dev.cmdQueryAll at ho
    rw [hx] at ho
    rcases hb with rfl | rfl <;> rw [ho] at hd
    · cases hd
    · exact Res.Bad.reply (m.st.fail_fails .executionError).bad d hd
  have dflt : m.st.allHwm = .err .uninitialized → m.out.reply =
      some ([0xff, 0xff, 0xff, 0xff] ++ [0xff, 0xff, 0xff, 0xff] ++ [0x7a, 0x06, 0xa7, 0x70] ++ [0x90, 0x00]) := by
    intro hx
    unfold Dev.cmdQueryAll at ho
    rw [hx] at ho
    rw [ho]
    rfl
  cases c1 with
  | blank => exact .inr (.inl ⟨⟨_, ht1⟩, dflt (by unfold Dev.allHwm; rw [(hr1 : _ = _)])⟩)
  | broken =>
    obtain ⟨m', h1, v, h2⟩ := ht1
    refine .inr (.inr ⟨?_, m', h1, _, v, h2⟩)
    rcases (hr1 : _ ∨ _) with hr | hr
    · exact bad _ (by unfold Dev.allHwm; rw [hr]) (.inl rfl)
    · exact bad _ (by unfold Dev.allHwm; rw [hr]) (.inr rfl)
  | val b1 =>
    have hr1 : m.st.main.read = .ok b1 := hr1
    cases c2 with
    | blank =>
      have hr2 : m.st.test.read = .err .uninitialized := hr2
      exact .inr (.inl ⟨⟨_, ht2⟩, dflt (by unfold Dev.allHwm; simp only [hr1, hr2])⟩)
    | broken =>
      obtain ⟨m', h1, v, h2⟩ := ht2
      refine .inr (.inr ⟨?_, m', h1, _, v, h2⟩)
      rcases (hr2 : _ ∨ _) with hr | hr
      · exact bad _ (by unfold Dev.allHwm; simp only [hr1, hr]) (.inl rfl)
      · exact bad _ (by unfold Dev.allHwm; simp only [hr1, hr]) (.inr rfl)
    | val b2 =>
      have hr2 : m.st.test.read = .ok b2 := hr2
      cases c3 with
      | blank =>
        have hr3 : m.st.chain.read = .err .uninitialized := hr3
        exact .inr (.inl ⟨⟨_, ht3⟩,
          dflt (by unfold Dev.allHwm; simp only [hr1, hr2, hr3])⟩)
      | broken =>
        obtain ⟨m', h1, v, h2⟩ := ht3
        refine .inr (.inr ⟨?_, m', h1, _, v, h2⟩)
        rcases (hr3 : _ ∨ _) with hr | hr
        · exact bad _ (by unfold Dev.allHwm; simp only [hr1, hr2, hr]) (.inl rfl)
        · exact bad _ (by unfold Dev.allHwm; simp only [hr1, hr2, hr]) (.inr rfl)
      | val b3 =>
        have hr3 : m.st.chain.read = .ok b3 := hr3
        refine .inl ⟨_, _, _, ht1, ht2, ht3, ?_⟩
        have hx : m.st.allHwm = .ok (be32 (WaterMark.decode b1).level ++ be32 (WaterMark.decode b2).level ++
            be32 (chainIdDecode b3)) := by
          unfold Dev.allHwm
          simp only [hr1, hr2, hr3]
        unfold Dev.cmdQueryAll at ho
        rw [hx] at ho
        rw [ho]
        rfl

/-! ### C48 -/

/-- The contents of a record read back. -/
def Cell.readRes : Cell → ReadRes
  | .blank => .err .uninitialized
  | .val b => .ok b
  | .broken => .panic

theorem Store.Holds.read_eq {st : Store} {n : Nat} {c : Cell} (h : st.Holds n c) : st.read = c.readRes := by
  cases h with
  | @good k v hk hc hi =>
    have := (Store.Holds.good (n := n) hk hc hi).read
    split
    · rename_i h0
      rw [if_pos h0] at this
      exact this
    · rename_i h0
      rw [if_neg h0] at this
      exact this
  | broken hc hp => simp only [Store.read, Store.wear, hc, Wear.new_broken hp, Cell.readRes]

/-- The watermark queries report main level `l`, test level `t` and chain id `ch`. -/
structure Reports (cfg : Config) (s : Dev) (l t ch : UInt32) : Prop where
  main : ∀ env ev buf rx, Received cfg s ev buf rx .queryMain →
    (s.step cfg env ev).2.reply = some (be32 l ++ [0x90, 0x00])
  all : ∀ env ev buf rx, Received cfg s ev buf rx .queryAll →
    (s.step cfg env ev).2.reply = some (be32 l ++ be32 t ++ be32 ch ++ [0x90, 0x00])

theorem Reports.of_reads {cfg : Config} {s : Dev} {b1 b2 b3 : Bytes} (h1 : s.main.read = .ok b1)
    (h2 : s.test.read = .ok b2) (h3 : s.chain.read = .ok b3) :
    Reports cfg s (Mark.main.value b1) (Mark.test.value b2) (Mark.chain.value b3) where
  main env ev buf rx hrec := by
    rw [hrec.step env]
    simp only [Dev.exec, Dev.cmdQueryMain, h1]
    rfl
  all env ev buf rx hrec := by
    rw [hrec.step env]
    simp only [Dev.exec, Dev.cmdQueryAll, Dev.allHwm, h1, h2, h3]
    rfl

/-- A value that an event sets with success is read back, also after a restart. -/
theorem sets_read {cfg : Config} {new : NewDevice} {es : List (Env × Event)} {past rest : List Moment} {m : Moment}
    {r : Mark} (hes : ∀ e ∈ es, (e.1.markF r).Sound) (hlen : es.length < 2 ^ 64)
    (h : (Dev.factory new).trace cfg es = past ++ m :: rest) {b : Bytes} (hs : Stores cfg m r b)
    (hsu : m.Success) : ((m.next cfg).mark r).read = .ok b ∧ ((m.next cfg).relaunch.mark r).read = .ok b := by
  obtain ⟨n, c, hn, hc, _, hf, ho⟩ := moment_mark r hes hlen h
  obtain ⟨c', h', hstep⟩ := (Moment.step_mark (cfg := cfg) ho r).cell hc hf hn
  have hc' : c' = .val b := by
    rcases hstep with ⟨_, hno⟩ | ⟨b', hs', hsucc, _⟩
    · exact absurd hsu (hno b hs)
    · rw [hsucc hsu, hs.unique hs']
  subst hc'
  refine ⟨h'.read_eq, ?_⟩
  have := h'.relaunch.read_eq
  cases r <;> exact this

/-- C48, setup: when the approval of a setup is answered with success, the authorized key is the reviewed one, and the
queries report the reviewed levels and chain id, also after a restart. -/
theorem C48_setup_takes_effect (cfg : Config) (new : NewDevice) (es : List (Env × Event))
    (hes : ∀ e ∈ es, e.1.keyF.Detected ∧ ∀ r, (e.1.markF r).Sound) (hlen : es.length < 2 ^ 64)
    (past rest : List Moment) (m : Moment) (h : (Dev.factory new).trace cfg es = past ++ m :: rest)
    (k : PathAndCurve) (a : Addr) (l t : UInt32) (ch : ChainID) (ha : Approves m.st m.ev (.setup k a l t ch))
    (hsu : m.Success) (s : Dev) (hs : s = m.next cfg ∨ s = (m.next cfg).relaunch) :
    s.storedKey = some k ∧ Reports cfg s l t ch.toU32 := by
  have hm := sets_read (fun e he => (hes e he).2 .main) hlen h (.setupMain k a l t ch ha) hsu
  have ht := sets_read (fun e he => (hes e he).2 .test) hlen h (.setupTest k a l t ch ha) hsu
  have hc := sets_read (fun e he => (hes e he).2 .chain) hlen h (.setupChain k a l t ch ha) hsu
  constructor
  · obtain ⟨ea, eb, rfl, hla, rfl, hst, ho, _⟩ := Dev.trace_split h
    simp only [List.length_append, List.length_cons] at hlen
    obtain ⟨c, hk, _⟩ := history_key (cfg := cfg) (new := new) (es := ea)
      (fun e he => (hes e (by simp [he])).1) (by omega)
    rw [← hst] at hk
    have hok : m.st.Ok := by rw [hst]; exact (Dev.Ok.factory new).run
    obtain ⟨c', h', hstep⟩ := m.st.step_key (cfg := cfg) (ev := m.ev) hok hk (hes (m.env, m.ev) (by simp)).1 (by omega)
    have hc' : c' = .val k.encode := by
      cases hstep with
      | same _ hn => cases hn _ ha
      | change v hv o hvo _ hr =>
        cases ha.unique hv
        cases hvo
        obtain ⟨d, hd⟩ := hsu
        rw [ho] at hd
        exact hr d hd
    subst hc'
    have hkk := hok _ ha.view
    have hkey : (Cell.val k.encode).key = some k := by
      simp only [Cell.key, PathAndCurve.tryFromBytes_encode hkk.1 hkk.2]
    rcases hs with rfl | rfl
    · exact (Store.Holds1.storedKey (s := m.next cfg) h').trans hkey
    · exact (Store.Holds1.storedKey (s := (m.next cfg).relaunch) h'.relaunch).trans hkey
  · have := fun h1 h2 h3 => Reports.of_reads (cfg := cfg) (s := s) (b1 := hwmBytes l) (b2 := hwmBytes t)
      (b3 := chainIdEncode ch.toU32) h1 h2 h3
    simp only [Mark.value, hwmBytes_level, chainIdDecode_encode] at this
    rcases hs with rfl | rfl
    · exact this hm.1 ht.1 hc.1
    · exact this hm.2 ht.2 hc.2

/-- C48, reset: when a reset is answered with success, the queries report the requested level for both watermarks, also
after a restart; the chain id is the one before, or that of mainnet if there was none; the authorized key stays. -/
theorem C48_reset_takes_effect (cfg : Config) (new : NewDevice) (es : List (Env × Event))
    (hes : ∀ e ∈ es, ∀ r, (e.1.markF r).Sound) (hlen : es.length < 2 ^ 64)
    (past rest : List Moment) (m : Moment) (h : (Dev.factory new).trace cfg es = past ++ m :: rest)
    (buf : Bytes) (rx : Nat) (hrec : Received cfg m.st m.ev buf rx .reset) (hsu : m.Success) :
    ∃ p, apduPayload buf = some p ∧ 4 ≤ p.length ∧ (m.next cfg).storedKey = m.st.storedKey ∧
      ∃ ch, (m.st.chain.read = .err .uninitialized ∧ ch = 0x7A06A770 ∨
          ∃ b, m.st.chain.read = .ok b ∧ ch = chainIdDecode b) ∧
        ∀ s, s = m.next cfg ∨ s = (m.next cfg).relaunch →
          Reports cfg s (u32OfBe (p.take 4)) (u32OfBe (p.take 4)) ch := by
  obtain ⟨n, c, hn, hc, _, hf, ho⟩ := moment_mark .chain (fun e he => hes e he .chain) hlen h
  have hst : m.next cfg = _ := congrArg Prod.fst (hrec.step m.env)
  have hor : m.out.reply = _ := (congrArg Output.reply ho).trans (congrArg (fun p => p.2.reply) (hrec.step m.env))
  rcases m.st.cmdReset_cases m.env (apduPayload buf) with hfa | ⟨p, hp, hl, he⟩
  · exact absurd hsu (Res.Bad.not_success hfa.bad hor)
  have hm := sets_read (fun e he => hes e he .main) hlen h (.resetMain buf rx p hrec hp hl) hsu
  have ht := sets_read (fun e he => hes e he .test) hlen h (.resetTest buf rx p hrec hp hl) hsu
  have hkey : (m.next cfg).storedKey = m.st.storedKey := by
    have hfl := (m.st.exec cfg m.env .reset (buf.getD 2 0) (buf.getD 3 0) (apduPayload buf)).deliver_flash
    have : (m.next cfg).key = m.st.key := by rw [hst, hfl.key, Dev.exec_key]
    unfold Dev.storedKey
    rw [this]
  refine ⟨p, hp, hl, hkey, ?_⟩
  have reports : ∀ b, ((m.next cfg).mark .chain).read = .ok b → ((m.next cfg).relaunch.mark .chain).read = .ok b →
      ∀ s, s = m.next cfg ∨ s = (m.next cfg).relaunch →
          Reports cfg s (u32OfBe (p.take 4)) (u32OfBe (p.take 4)) (chainIdDecode b) := by
    intro b h1 h2 s hs
    have := fun g1 g2 g3 => Reports.of_reads (cfg := cfg) (s := s) (b1 := hwmBytes (u32OfBe (p.take 4)))
      (b2 := hwmBytes (u32OfBe (p.take 4))) (b3 := b) g1 g2 g3
    simp only [Mark.value, hwmBytes_level] at this
    rcases hs with rfl | rfl
    · exact this hm.1 ht.1 h1
    · exact this hm.2 ht.2 h2
  have hcr := hc.read_eq
  cases c with
  | blank =>
    have hu : m.st.chain.read = .err .uninitialized := hcr
    have hc3 := sets_read (fun e he => hes e he .chain) hlen h (.resetChain buf rx p hrec hp hl hu) hsu
    have := reports _ hc3.1 hc3.2
    rw [chainIdDecode_encode] at this
    exact ⟨_, .inl ⟨hu, rfl⟩, this⟩
  | val b =>
    have hu : m.st.chain.read = .ok b := hcr
    obtain ⟨c', h', hstep⟩ := (Moment.step_mark (cfg := cfg) ho .chain).cell hc hf hn
    have hc' : c' = .val b := by
      rcases hstep with ⟨hh, _⟩ | ⟨b', hs', _⟩
      · exact hh
      · cases hs' with
        | resetChain _ _ _ _ _ _ hx => rw [hu] at hx; cases hx
        | setupChain _ _ _ _ _ hx => exact (hrec.not_approves hx).elim
    subst hc'
    exact ⟨_, .inr ⟨b, hu, rfl⟩, reports b h'.read_eq h'.relaunch.read_eq⟩
  | broken =>
    have hu : m.st.chain.read = .panic := hcr
    have hex : m.st.exec cfg m.env .reset (buf.getD 2 0) (buf.getD 3 0) (apduPayload buf) =
      m.st.resetHwm m.env (u32OfBe (p.take 4)) := he
    rw [hex] at hor
    cases m.st.resetHwm_cases m.env (u32OfBe (p.take 4)) with
    | main _ _ hb => exact absurd hsu (hb.not_success hor)
    | test _ _ _ hb => exact absurd hsu (hb.not_success hor)
    | chain _ _ _ hx =>
      rcases hx with ⟨_, hb⟩ | ⟨hx, _⟩
      · exact absurd hsu (hb.not_success hor)
      · exact absurd hu hx
    | init _ _ hx => rw [hu] at hx; cases hx

/-! ### C49 -/

/-- C49, signatures: whatever the state, an event that hands out a signature leaves the test watermark and the chain id
as they are. -/
theorem C49_signing_keeps_test_and_chain (cfg : Config) (s : Dev) (env : Env) (ev : Event) (x : SigRec)
    (hx : (s.step cfg env ev).2.sig = some x) :
    (s.step cfg env ev).1.test = s.test ∧ (s.step cfg env ev).1.chain = s.chain := by
  cases Dev.step_signed hx with
  | review h p ha hp hs hr hst => exact ⟨hst.test, hst.chain⟩
  | delegation h br op ha hk hs hr hst => exact ⟨hst.test, hst.chain⟩
  | consensus h buf rx hrec u q2 first ref hu hcv hp hk hd hs hr b it hb hi hl hlt hw hm hrest =>
    exact ⟨hrest.1, hrest.2.1⟩

/-- C49, all events: along every history, an event that is neither a reset command nor the approval of a setup leaves
what the test watermark and the chain id records read unchanged. This includes signing commands that fail, power losses
and restarts. -/
theorem C49_only_setup_and_reset (cfg : Config) (new : NewDevice) (es : List (Env × Event))
    (hes : ∀ e ∈ es, ∀ r, (e.1.markF r).Sound) (hlen : es.length < 2 ^ 64) (past rest : List Moment) (m : Moment)
    (h : (Dev.factory new).trace cfg es = past ++ m :: rest) (hn : ¬ Overrides cfg m.st m.ev) :
    (m.next cfg).test.read = m.st.test.read ∧ (m.next cfg).chain.read = m.st.chain.read := by
  have key : ∀ r : Mark, r ≠ .main → ((m.next cfg).mark r).read = (m.st.mark r).read := by
    intro r hr
    obtain ⟨n, c, hn', hc, _, hf, ho⟩ := moment_mark r (fun e he => hes e he r) hlen h
    cases Moment.step_mark (cfg := cfg) ho r with
    | same h _ => rw [h]
    | relaunch _ h _ => rw [h, hc.relaunch.read_eq, hc.read_eq]
    | write b hs _ _ =>
      exfalso
      cases hs with
      | resetMain => exact hr rfl
      | resetTest _ _ _ h => exact hn (.reset _ _ h)
      | resetChain _ _ _ h => exact hn (.reset _ _ h)
      | setupMain => exact hr rfl
      | setupTest _ _ _ _ _ h => exact hn (.setup _ _ _ _ _ h)
      | setupChain _ _ _ _ _ h => exact hn (.setup _ _ _ _ _ h)
      | sign => exact hr rfl
  exact ⟨key .test (by decide), key .chain (by decide)⟩

/-! ### C50 -/

/-- The instruction codes that open the reviews which change the authorized key. -/
def keyInstructions : List UInt8 := [0xA1, 0x01, 0xAC, 0x0C, 0x0A]

theorem command_keyChange {b : Build} {ins : UInt8} {c : Cmd} (hc : command b ins = some c)
    (h : c = .authorize ∨ c = .deauthorize ∨ c = .setup) : b = .baking ∧ ins ∈ keyInstructions := by
  have : ∀ n : Fin 256, (command b (UInt8.ofNat n) = some .authorize ∨ command b (UInt8.ofNat n) = some .deauthorize ∨
      command b (UInt8.ofNat n) = some .setup) → b = .baking ∧ UInt8.ofNat n ∈ keyInstructions := by
    cases b <;> decide +kernel
  refine forall_u8 (P := fun ins => (command b ins = some .authorize ∨ command b ins = some .deauthorize ∨
      command b ins = some .setup) → b = .baking ∧ ins ∈ keyInstructions) this ins ?_
  rcases h with rfl | rfl | rfl
  · exact .inl hc
  · exact .inr (.inl hc)
  · exact .inr (.inr hc)

/-- C50: along every history, the authorized key only changes at an event at which the user approves an authorize,
de-authorize or setup review, which a command of the baking build with one of the instructions for it opened and which
has been pending since; afterwards the key is the approved one, or there is none. -/
theorem C50_key_changes_by_approval (cfg : Config) (new : NewDevice) (es : List (Env × Event))
    (hes : ∀ e ∈ es, e.1.keyF.Detected) (hlen : es.length < 2 ^ 64) (past rest : List Moment) (m : Moment)
    (h : (Dev.factory new).trace cfg es = past ++ m :: rest) (hch : (m.next cfg).storedKey ≠ m.st.storedKey) :
    ∃ v o, Approves m.st m.ev v ∧ v.keyChange = some o ∧
      ((m.next cfg).storedKey = o ∨ (m.next cfg).storedKey = none) ∧
      ∃ a m0 b, past = a ++ m0 :: b ∧ cfg.build = .baking ∧
        (∃ buf rx ins, m0.ev = .apdu buf rx ∧ buf[1]? = some ins ∧ ins ∈ keyInstructions) ∧
        (m0.next cfg).view = some v ∧ ∀ m' ∈ b, m'.st.view = some v := by
  obtain ⟨ea, eb, rfl, hla, rfl, hst, ho, _⟩ := Dev.trace_split h
  simp only [List.length_append, List.length_cons] at hlen
  obtain ⟨c, hk, _⟩ := history_key (cfg := cfg) (new := new) (es := ea)
    (fun e he => hes e (by simp [he])) (by omega)
  rw [← hst] at hk
  have hok : m.st.Ok := by rw [hst]; exact (Dev.Ok.factory new).run
  obtain ⟨c', h', hstep⟩ := m.st.step_key (cfg := cfg) (ev := m.ev) hok hk (hes (m.env, m.ev) (by simp)) (by omega)
  have e1 := Store.Holds1.storedKey (s := m.st) hk
  have e2 : (m.next cfg).storedKey = c'.key := Store.Holds1.storedKey (s := m.next cfg) h'
  cases hstep with
  | same hc _ => exact absurd (by rw [e1, e2, hc]) hch
  | change v ha o hv hc _ =>
    refine ⟨v, o, ha, hv, ?_, ?_⟩
    · rcases hc with hc | hc | hc
      · exact absurd (by rw [e1, e2, hc]) hch
      · left
        rw [e2, hc]
        cases o with
        | none => rfl
        | some k =>
          have hvo := hok v ha.view
          have hkk : 1 ≤ k.path.length ∧ k.path.length ≤ 10 := by
            cases v with
            | authorize k' a => cases hv; exact hvo
            | setup k' a m t ch => cases hv; exact hvo
            | _ => cases hv
          simp only [Cell.key, keyBytes, PathAndCurve.tryFromBytes_encode hkk.1 hkk.2]
      · right
        rw [e2, hc]
        rfl
    · obtain ⟨a, m0, b, he, hop, hp⟩ := view_origin (v := v) (by rw [← hst]; exact ha.view)
      obtain ⟨buf, rx, cmd, p, u, hrec, hopens, _⟩ := hop.ex
      obtain ⟨ins, hi, hcmd⟩ := hrec.cmd
      have hb : cfg.build = .baking ∧ ins ∈ keyInstructions := by
        cases hopens with
        | authorize => exact command_keyChange hcmd (.inl rfl)
        | deauthorize => exact command_keyChange hcmd (.inr (.inl rfl))
        | setup => exact command_keyChange hcmd (.inr (.inr rfl))
        | _ => cases hv
      exact ⟨a, m0, b, he, hb.1, ⟨buf, rx, ins, hrec.ev, hi, hb.2⟩, hop.view, hp⟩

/-! ### C51 -/

/-- The event is a baking signature request completing the upload of a consensus message above the watermark `b`. -/
structure AsksAbove (cfg : Config) (m : Moment) (b : Bytes) (msg : Bytes) (it : Item) : Prop where
  ex : ∃ h buf rx u q2 first ref, Received cfg m.st m.ev buf rx (.bakerSign h) ∧
    Completes m.env m.st .baking (buf.getD 2 0) (buf.getD 3 0) (apduPayload buf) u q2 first msg ref
  item : consensusItem msg = some it
  above : Item.lt (WaterMark.decode b).item it

/-- When a request to sign a consensus message is answered with success, the reply hands out a signature of it. -/
theorem AsksAbove.signs {cfg : Config} {m : Moment} {b msg : Bytes} {it : Item} (h : AsksAbove cfg m b msg it)
    (hout : m.out = (m.st.step cfg m.env m.ev).2) (hsu : m.Success) : ∃ x, m.out.sig = some x ∧ x.msg = msg := by
  obtain ⟨⟨hh, buf, rx, u, q2, first, ref, hrec, hu⟩, hi, _⟩ := h
  have hex : m.st.exec cfg m.env (.bakerSign hh) (buf.getD 2 0) (buf.getD 3 0) (apduPayload buf) =
      (let f := Dev.bakerSign m.env hh q2 first msg ref (m.st.withUpload m.st.path u)
       { f with st := { f.st with upl := f.st.upl.drop .baking } }) := by
    simp only [Dev.exec, Dev.cmdUpload, hu.eq]
    rfl
  have ho := hout.trans (congrArg Prod.snd (hrec.step m.env))
  rw [hex] at ho
  have hbad : ∀ {t : Dev}, (Dev.bakerSign m.env hh q2 first msg ref (m.st.withUpload m.st.path u)).Fails t → False := by
    intro t hf
    refine Res.Bad.not_success ?_ (congrArg Output.reply ho) hsu
    exact ⟨hf.2.1, hf.2.2⟩
  rcases (m.st.withUpload m.st.path u).bakerSign_cases m.env hh q2 first msg ref with
    hf | ⟨k, digest, hc, hp, hk, hd, ⟨hm, he⟩ | ⟨rem, rfl, he⟩⟩
  · exact (hbad hf).elim
  · rw [he] at hbad
    simp only [he] at ho
    rcases (m.st.withUpload m.st.path u).autoSign_cases m.env hh digest msg (specDecide msg)
      (fun _ _ => specDecide_error) with hf | ⟨b', w, hb', hdec, hf | ⟨hw, k', sig, _, _, hre⟩⟩
    · exact (hbad hf).elim
    · exact (hbad hf).elim
    · rw [hre] at ho
      exact ⟨_, by rw [ho]; rfl, rfl⟩
  · have := consensusItem_magic hi
    cases this

/-- C51, what holds: along every history, the main watermark record only changes by a reset command, by an approved
setup, or by a request to sign a message above the watermark; the new watermark is then that of the message, or the
record was damaged by a power loss; and a request that is answered with success hands out the signature.
What is missing: resets need no approval (`C51_reset_without_confirmation`). -/
theorem C51_changes_by_approval_or_signature_partial (cfg : Config) (new : NewDevice) (es : List (Env × Event))
    (hes : ∀ e ∈ es, e.1.mainF.Sound) (hlen : es.length < 2 ^ 64) (past rest : List Moment) (m : Moment)
    (h : (Dev.factory new).trace cfg es = past ++ m :: rest)
    (hch : (m.next cfg).main.read ≠ m.st.main.read) :
    (∃ buf rx, Received cfg m.st m.ev buf rx .reset) ∨
    (∃ k a l t ch, Approves m.st m.ev (.setup k a l t ch)) ∨
    ∃ b msg it, m.st.main.read = .ok b ∧ AsksAbove cfg m b msg it ∧
      ((∃ b', (m.next cfg).main.read = .ok b' ∧ (WaterMark.decode b').item = it) ∨
        ((m.next cfg).main.read = .panic ∧ m.env.mainF ≠ .done)) ∧
      (m.Success → ∃ x, m.out.sig = some x ∧ x.msg = msg) := by
  obtain ⟨n, c, hn', hc, _, hf, ho⟩ := moment_mark .main hes hlen h
  obtain ⟨c', h', hstep⟩ := (Moment.step_mark (cfg := cfg) ho .main).cell hc hf hn'
  have e1 : m.st.main.read = _ := hc.read_eq
  have e2 : (m.next cfg).main.read = _ := h'.read_eq
  rcases hstep with ⟨hcc, _⟩ | ⟨b, hs, _, hcc⟩
  · exact absurd (by rw [e1, e2, hcc]) hch
  · cases hs with
    | resetMain buf rx p h => exact .inl ⟨_, _, h⟩
    | setupMain k a l t ch h => exact .inr (.inl ⟨_, _, _, _, _, h⟩)
    | sign hh buf rx hrec u q2 first msg ref hu b it hb hi hl hlt =>
      have ha : AsksAbove cfg m b msg it := ⟨⟨hh, buf, rx, u, q2, first, ref, hrec, hu⟩, hi, hlt⟩
      refine .inr (.inr ⟨b, msg, it, hb, ha, ?_, ha.signs ho⟩)
      rcases hcc with hcc | hcc | ⟨hcc, hd⟩
      · exact absurd (by rw [e1, e2, hcc]) hch
      · left
        refine ⟨_, by rw [e2, hcc]; rfl, ?_⟩
        rw [WaterMark.decode_encode, WaterMark.item_ofItem hi]
      · exact .inr ⟨by rw [e2, hcc]; rfl, hd⟩

/-! ### Concrete histories -/

namespace Demo

def queryMain : List (Env × Event) := ok [apdu 0x08 0 0 []]
def queryAll : List (Env × Event) := ok [apdu 0x0B 0 0 []]

/-- The power fails while a reset writes the test watermark; then a restart and both queries. -/
def partlySet : List (Env × Event) :=
  [({ fine with testF := .powerLoss .unchanged }, apdu 0x06 0 0 (be32 5)), (fine, .relaunch)] ++ queryMain ++ queryAll

set_option maxRecDepth 100000 in
/-- C47, counterexample to the full statement: after a power loss during a reset the main watermark is 5, which the main
query reports, while the full query reports the defaults. -/
theorem C47_partly_set_device_reports_defaults :
    (∀ e ∈ partlySet, ∀ r, (e.1.markF r).Sound) ∧
    ((fresh.run bakingApp partlySet).2.map Output.reply) =
      [none, none, some [0, 0, 0, 5, 0x90, 0x00],
        some [0xff, 0xff, 0xff, 0xff, 0xff, 0xff, 0xff, 0xff, 0x7a, 0x06, 0xa7, 0x70, 0x90, 0x00]] := by
  refine ⟨fun e he r => ?_, by decide +kernel⟩
  cases r
  · exact (show ∀ e ∈ partlySet, (e.1.markF .main).Sound by decide +kernel) e he
  · exact (show ∀ e ∈ partlySet, (e.1.markF .test).Sound by decide +kernel) e he
  · exact (show ∀ e ∈ partlySet, (e.1.markF .chain).Sound by decide +kernel) e he

/-- Queries on a new device, after a setup, after a signature, after a reset and a restart. -/
def queries : List (Env × Event) :=
  queryMain ++ queryAll ++ setup 5 ++ queryAll ++ sign (emmyBlock 7) ++ queryMain ++ queryAll ++ reset 3 ++
    ok [.relaunch] ++ queryMain ++ queryAll

set_option maxRecDepth 100000 in
/-- C47 and C48 on `queries`: the defaults; levels 5 and 0 after the setup; 7 after the signature; 3 and 3 after the
reset, in a history whose writes all complete. -/
example :
    ([0, 1, 10, 13, 14, 15, 17, 18].map fun i => (fresh.run bakingApp queries).2[i]?.bind Output.reply) =
      [some [0xff, 0xff, 0xff, 0xff, 0x90, 0x00],
       some [0xff, 0xff, 0xff, 0xff, 0xff, 0xff, 0xff, 0xff, 0x7a, 0x06, 0xa7, 0x70, 0x90, 0x00],
       some [0, 0, 0, 5, 0, 0, 0, 0, 0x7a, 0x06, 0xa7, 0x70, 0x90, 0x00],
       some [0, 0, 0, 7, 0x90, 0x00],
       some [0, 0, 0, 7, 0, 0, 0, 0, 0x7a, 0x06, 0xa7, 0x70, 0x90, 0x00],
       some [0x90, 0x00],
       some [0, 0, 0, 3, 0x90, 0x00],
       some [0, 0, 0, 3, 0, 0, 0, 3, 0x7a, 0x06, 0xa7, 0x70, 0x90, 0x00]] := by
  decide +kernel

theorem queries_sound : ∀ e ∈ queries, e.1.keyF.Detected ∧ ∀ r, (e.1.markF r).Sound := by
  intro e he
  refine ⟨(show ∀ e ∈ queries, e.1.keyF.Detected by decide +kernel) e he, fun r => ?_⟩
  cases r
  · exact (show ∀ e ∈ queries, (e.1.markF .main).Sound by decide +kernel) e he
  · exact (show ∀ e ∈ queries, (e.1.markF .test).Sound by decide +kernel) e he
  · exact (show ∀ e ∈ queries, (e.1.markF .chain).Sound by decide +kernel) e he

set_option maxRecDepth 100000 in
/-- The hypotheses of `C48_setup_takes_effect` and `C50_key_changes_by_approval` hold at the approval in `queries`. -/
example : ∃ past m rest k a l t ch, (Dev.factory ⟨.small, []⟩).trace bakingApp queries = past ++ m :: rest ∧
    Approves m.st m.ev (.setup k a l t ch) ∧ m.Success ∧ (m.next bakingApp).storedKey ≠ m.st.storedKey := by
  obtain ⟨m, _, h1, _, h⟩ := two_moments (es := queries) (i := 9) (j := 10)
    (P := fun m _ => decide (isSetup (approved m.st m.ev) = true ∧
      m.out.reply.map (fun r => r.drop (r.length - 2)) = some [0x90, 0x00] ∧
      (m.next bakingApp).storedKey ≠ m.st.storedKey))
    (by decide +kernel)
  simp only [decide_eq_true_eq] at h
  obtain ⟨ha, hr, hk⟩ := h
  cases hv : approved m.st m.ev with
  | none => rw [hv] at ha; cases ha
  | some v =>
    rw [hv] at ha
    cases v with
    | setup k a l t ch =>
      obtain ⟨r, hr1, hr2⟩ := Option.map_eq_some_iff.mp hr
      have hsp := List.take_append_drop (r.length - 2) r
      rw [hr2] at hsp
      have hl := List.getElem?_eq_some_iff.mp h1
      refine ⟨(fresh.trace bakingApp queries).take 9, m, (fresh.trace bakingApp queries).drop 10, k, a, l, t, ch, ?_,
        (approved_iff _ _ _).mp hv, ⟨_, by rw [hsp]; exact hr1⟩, hk⟩
      obtain ⟨hl1, hl2⟩ := hl
      rw [← hl2, ← List.drop_eq_getElem_cons hl1]
      exact (List.take_append_drop ..).symm
    | _ => cases ha

/-- A Tenderbake block, a reset, another block for the same level and round. -/
def twice : List (Env × Event) := setup 5 ++ sign (tbBlock 7 0 0) ++ reset 5 ++ sign (tbBlock 7 0 9)

set_option maxRecDepth 100000 in
/-- C51, counterexample to the full statement: with a reset, which needs no approval, the host gets signatures of two
different blocks for the same level and round. Between the two signatures there is no user action, and no write
fails. -/
theorem C51_reset_without_confirmation :
    ∃ past mid rest m1 m2 x1 x2 it, (Dev.factory ⟨.small, []⟩).trace bakingApp twice = past ++ m1 :: (mid ++ m2 :: rest) ∧
      (∀ m ∈ mid, ∃ buf rx, m.ev = .apdu buf rx) ∧ (∀ e ∈ twice, e.1.mainF = .done) ∧
      m1.out.sig = some x1 ∧ m2.out.sig = some x2 ∧ x1.msg ≠ x2.msg ∧
      consensusItem x1.msg = some it ∧ consensusItem x2.msg = some it := by
  obtain ⟨m1, m2, h1, h2, h⟩ := two_moments (es := twice) (i := 9) (j := 12)
    (P := fun m1 m2 => decide (m1.out.sig.map SigRec.msg = some (tbBlock 7 0 0) ∧
      m2.out.sig.map SigRec.msg = some (tbBlock 7 0 9)))
    (by decide +kernel)
  simp only [decide_eq_true_eq] at h
  obtain ⟨e1, e2⟩ := h
  obtain ⟨x1, hx1, e1⟩ := Option.map_eq_some_iff.mp e1
  obtain ⟨x2, hx2, e2⟩ := Option.map_eq_some_iff.mp e2
  refine ⟨_, _, _, m1, m2, x1, x2, ⟨1, 7, 0, 0⟩, split_at h1 h2 (by omega), ?_, by decide +kernel, hx1, hx2, ?_, ?_, ?_⟩
  · have : ∀ m ∈ (((fresh.trace bakingApp twice).drop (9 + 1)).take (12 - 9 - 1)).map Moment.ev,
        (match m with | .apdu .. => true | _ => false) = true := by decide +kernel
    intro m hm
    have := this m.ev (List.mem_map_of_mem hm)
    split at this
    · exact ⟨_, _, by assumption⟩
    · cases this
  · rw [e1, e2]; decide
  · rw [e1]; decide +kernel
  · rw [e2]; decide +kernel

set_option maxRecDepth 100000 in
/-- The third case of `C51_changes_by_approval_or_signature_partial` occurs: the second packet of the first block. -/
example : (((fresh.trace bakingApp twice)[9]?.map fun m =>
      (decide ((m.next bakingApp).main.read ≠ m.st.main.read), decide (Overrides bakingApp m.st m.ev),
        m.out.sig.isSome))) = some (true, false, true) := by
  decide +kernel

end Demo

end Tezos
