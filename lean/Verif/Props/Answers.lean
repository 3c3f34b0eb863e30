import Verif.Props.Granted
import Verif.Spec.Answers
/-
C87: every request is answered as the table in Spec/Answers.lean says.
-/
set_option linter.unusedSimpArgs false
set_option linter.unusedVariables false
namespace Tezos
open Spec

/-- During this event nothing fails: the flash is written, and the cryptographic system calls succeed. -/
structure Serves (env : Env) : Prop where
  works : env.cr.Works
  hash20 : ∀ m, (env.cr.blake2b 20 m).isSome
  sha512 : ∀ m, (env.cr.sha512 m).isSome
  hmac : ∀ k m, (env.cr.hmac k m).isSome
  publicKey : ∀ c p, (env.cr.publicKey c p).isSome
  sign : ∀ c p d, (env.cr.sign c p d).isSome
  main : env.mainF = .done
  test : env.testF = .done
  chain : env.chainF = .done
  key : env.keyF = .done
  copy : env.copyF = .done
  append : env.appendF = .done

theorem Serves.firm {env : Env} {ev : Event} (h : Serves env) (hev : ev.Full) : Firm env ev where
  sized := h.works.sized
  main := by rw [h.main]; trivial
  test := by rw [h.test]; trivial
  chain := by rw [h.chain]; trivial
  key := by rw [h.key]; trivial
  copy j := by rw [h.copy]; simp
  append j := by rw [h.append]; simp
  full := hev

theorem Serves.uncut {env : Env} (h : Serves env) : ¬ env.Cuts := by
  rintro (⟨l, e⟩ | ⟨l, e⟩ | ⟨l, e⟩ | ⟨l, e⟩ | ⟨l, e⟩ | ⟨l, e⟩)
  · rw [h.main] at e; cases e
  · rw [h.test] at e; cases e
  · rw [h.chain] at e; cases e
  · rw [h.key] at e; cases e
  · rw [h.copy] at e; cases e
  · rw [h.append] at e; cases e

/-- The address of every key can be computed. -/
theorem Serves.address {env : Env} (h : Serves env) (k : PathAndCurve) :
    ∃ key a, env.cr.publicKey k.curve k.path = some key ∧ Addr.ofKey env.cr k.curve key = some a ∧
      newAddr env.cr k.curve k.path = some a ∧ a.base58 = .ok (Tezos.base58 a.bytes) := by
  obtain ⟨key, hk⟩ := Option.isSome_iff_exists.mp (h.publicKey k.curve k.path)
  obtain ⟨hash, hh⟩ := Option.isSome_iff_exists.mp (h.hash20 (hashedKey k.curve key))
  obtain ⟨a, ha, hna, -⟩ := (⟨hk, rfl, hh⟩ : IsAccount env.cr k key ⟨curveKind k.curve, hash⟩).address h.works
  exact ⟨key, a, hk, ha, hna, (Addr.ofKey_spec ha).2 h.works.sized⟩

/-- A request was refused: the reply is this status word, and the request has no effect on the records, on the screen or
on the pending review. -/
structure Refuses (s s' : Dev) (out : Output) (word : Nat) : Prop where
  out : out = ⟨some (beEnc 2 word), none, none⟩
  flash : SameFlash s s'
  view : s'.view = s.view
  zui : s'.zui = s.zui

/-- The user is asked: a review is pending and the reply to come (or the review could not be displayed at all and is
answered like one that the user rejects). The records are not changed. -/
structure AsksUser (s s' : Dev) (out : Output) : Prop where
  out : (out = .quiet ∧ s'.view.isSome) ∨ (out = ⟨some [0x69, 0x86], none, none⟩ ∧ s'.view = none)
  flash : SameFlash s s'

/-- What happened is what the answer says. -/
def Fits (s s' : Dev) (out : Output) : Answer → Prop
  | .refused w => Refuses s s' out w
  | .served => ∃ d, out = ⟨some (d ++ [0x90, 0x00]), none, none⟩
  | .signed msg => ∃ d x, out = ⟨some (d ++ [0x90, 0x00]), some x, none⟩ ∧ x.msg = msg
  | .asked => AsksUser s s' out
  | .askedIf p => (p ∧ AsksUser s s' out) ∨ (¬ p ∧ Refuses s s' out 0x6984)
  | .declined => Refuses s s' out 0x6984 ∨ Refuses s s' out 0x6986
  | .stops => out = ⟨none, none, some .panic⟩

/-- The same of a handler. -/
abbrev Res.Fits (s : Dev) (r : Res) (a : Spec.Answer) : Prop := Tezos.Fits s r.deliver.1 r.deliver.2 a

section
variable {env : Env} {s : Dev}

theorem Dev.fail_fits (e : ApduError) : (s.fail e).Fits s (.refused e.code.toNat) :=
  ⟨rfl, .refl _, rfl, rfl⟩

theorem Dev.ok_fits (d : Bytes) : (s.ok d).Fits s .served := ⟨d, rfl⟩

theorem Dev.show_fits {ev : Event} (hs : s.Solid) (hf : Serves env) (hev : ev.Full) {v : View} (hv : v.Firm) :
    (s.show env v).Fits s .asked := by
  have hsafe := hs.show (P := False) (hf.firm hev) hv
  have hno : ∀ f, (s.show env v).out ≠ .fault f := by
    intro f e
    rcases hsafe.fault f e with ⟨-, h⟩ | ⟨-, h⟩
    · exact hf.uncut h
    · exact h
  revert hno
  unfold Dev.show
  dsimp only
  split
  · exact fun _ => ⟨.inl ⟨rfl, rfl⟩, ⟨rfl, rfl, rfl, rfl⟩⟩
  · exact fun _ => ⟨.inl ⟨rfl, rfl⟩, ⟨rfl, rfl, rfl, rfl⟩⟩
  · refine fun _ => ⟨.inr ⟨rfl, rfl⟩, ?_⟩
    cases v <;> exact ⟨rfl, rfl, rfl, rfl⟩
  · exact fun h => absurd rfl (h _)
  · exact fun h => absurd rfl (h _)

theorem curve_code (p2 : UInt8) : Curve.ofByte p2 = none ↔ 3 < p2.toNat := by
  have : ∀ b : UInt8, Curve.ofByte b = none ↔ 3 < b.toNat := forall_u8 (by decide +kernel)
  exact this p2

theorem isPath_iff {n : Nat} {d : Bytes} : IsPath n d ↔ ∃ p, Path.read n d = .ok p := by
  cases d with
  | nil => simp [IsPath, Path.read]
  | cons b body =>
    simp only [IsPath, Path.read]
    constructor
    · rintro ⟨h1, h2, h3⟩
      rw [if_neg (by omega), if_neg (by omega), if_neg (by omega), if_neg (by omega), if_neg (by omega)]
      exact ⟨_, rfl⟩
    · rintro ⟨p, hp⟩
      repeat' split at hp
      all_goals first | (cases hp; done) | skip
      omega

/-- Commands that name a key. -/
theorem Dev.withPath_fits {n : Nat} {p2 : UInt8} {d : Bytes} {k : PathAndCurve → Res} {a : Answer} {s0 : Dev}
    (hs : ∀ e : ApduError, (s.fail e).Fits s0 (.refused e.code.toNat))
    (h : ∀ c, Curve.ofByte p2 = some c.curve → Path.read n d = .ok c.path → (k c).Fits s0 a) :
    (s.withPath n p2 (some d) k).Fits s0 (withKeyName n p2 d a) := by
  unfold Dev.withPath withKeyName
  cases hc : Curve.ofByte p2 with
  | none =>
    rw [if_pos ((curve_code p2).mp hc)]
    exact hs .invalidP1P2
  | some c =>
    rw [if_neg (fun h => by rw [(curve_code p2).mpr h] at hc; cases hc)]
    dsimp only
    cases hp : Path.read n d with
    | error e =>
      rw [if_neg (fun h => by obtain ⟨p, h⟩ := isPath_iff.mp h; rw [h] at hp; cases hp)]
      exact hs .dataInvalid
    | ok p =>
      rw [if_pos (isPath_iff.mpr ⟨p, hp⟩)]
      exact h ⟨c, p⟩ hc hp

end

/-! ### States -/

/-- What is known of a device after a history in which the flash worked. -/
structure Dev.Sane (s : Dev) : Prop where
  solid : s.Solid
  mark : ∀ r e, (s.mark r).read = .err e → e = .uninitialized
  key : ∀ b, s.key.read = .ok b → ∃ k, PathAndCurve.tryFromBytes b = .ok k

theorem Store.Holds.plain {st : Store} {n : Nat} {c : Cell} (h : st.Holds n c) (hf : st.Firm) {e : WearError}
    (he : st.read = .err e) : e = .uninitialized := by
  have hr := h.read
  cases h with
  | broken hc hp =>
    obtain ⟨p, hp, hx⟩ := hp
    exact absurd hx (hf.pages p hp)
  | good hk hc hi =>
    rename_i k v
    by_cases h0 : k = 0
    · rw [if_pos h0, he] at hr
      cases hr
      rfl
    · rw [if_neg h0, he] at hr
      cases hr

/-- The key record is empty or was written by the app. -/
theorem history_keyBytes {cfg : Config} {new : NewDevice} {es : List (Env × Event)}
    (hes : ∀ e ∈ es, e.1.keyF.Detected) (hlen : es.length < 2 ^ 64) :
    ∃ c, ((Dev.factory new).run cfg es).1.key.Holds1 es.length c ∧
      ∀ b, c = .val b → ∃ k, PathAndCurve.tryFromBytes b = .ok k := by
  induction es using list_snoc_induction with
  | nil => exact ⟨.blank, Store.Holds1.fresh, fun b hb => by cases hb⟩
  | snoc es e ih =>
    simp only [List.length_append, List.length_singleton] at hlen
    obtain ⟨c, h, hk⟩ := ih (fun e he => hes e (by simp [he])) (by omega)
    have hok : ((Dev.factory new).run cfg es).1.Ok := (Dev.Ok.factory new).run
    rw [Dev.run_append]
    generalize hs : ((Dev.factory new).run cfg es).1 = s at *
    obtain ⟨env, ev⟩ := e
    obtain ⟨c', h', hstep⟩ := s.step_key (cfg := cfg) (ev := ev) hok h (hes (env, ev) (by simp)) (by omega)
    refine ⟨c', by simpa [Dev.run] using h', ?_⟩
    cases hstep with
    | same hc hn => rw [hc]; exact hk
    | change v ha o ho hc hr =>
      rcases hc with rfl | rfl | rfl
      · exact hk
      · intro b hb
        cases hb
        cases o with
        | none => exact ⟨none, by decide +kernel⟩
        | some k' =>
          have hvo := hok v ha.view
          have hkk : 1 ≤ k'.path.length ∧ k'.path.length ≤ 10 := by
            cases v with
            | authorize k' a => cases ho; exact hvo
            | setup k' a m t ch => cases ho; exact hvo
            | _ => cases ho
          exact ⟨some k', PathAndCurve.tryFromBytes_encode hkk.1 hkk.2⟩
      · intro b hb
        cases hb

theorem Dev.Sane.of_history {cfg : Config} {new : NewDevice} (hu : new.upload.length = uploadCapacity)
    {es : List (Env × Event)} (hes : ∀ e ∈ es, Kind e.1 e.2) (hlen : es.length < 2 ^ 64) :
    ((Dev.factory new).run cfg es).1.Sane where
  solid := (Dev.Takes.of_history hu hes hlen).solid
  mark r e he := by
    have ht := Dev.Takes.of_history (cfg := cfg) hu hes hlen
    obtain ⟨c, hc⟩ := ht.mark r
    refine hc.plain ?_ he
    cases r
    · exact ht.solid.main
    · exact ht.solid.test
    · exact ht.solid.chain
  key b hb := by
    obtain ⟨c, hc, hk⟩ := history_keyBytes (cfg := cfg) (new := new) (fun e he => (hes e he).key.detected) hlen
    have hr := hc.read
    rw [hb] at hr
    cases c with
    | blank => cases hr
    | val v =>
      cases hr
      exact hk b rfl
    | broken => rcases hr with hr | hr <;> cases hr

/-! ### Handlers -/

section
variable {env : Env} {s : Dev}

/-- The authorized key, as it is named in commands. -/
def Dev.keyName (s : Dev) : Option (UInt8 × Bytes) :=
  s.storedKey.map fun k => (curveCode k.curve, UInt8.ofNat k.path.length :: k.path.flatMap be32)

/-- The watermark, as the item last signed. -/
def Dev.lastItem (s : Dev) : Option Item :=
  match s.main.read with
  | .ok b => some (WaterMark.decode b).item
  | _ => none

theorem Dev.Sane.withKey_none (h : s.Sane) (hk : s.storedKey = none) (f : PathAndCurve → Res) :
    s.withKey .conditionsNotSatisfied .conditionsNotSatisfied f = s.fail .conditionsNotSatisfied := by
  unfold Dev.withKey Dev.withRead
  cases hr : s.key.read with
  | err e => rfl
  | panic => exact absurd hr h.solid.key.read
  | ok b =>
    obtain ⟨k, hb⟩ := h.key b hr
    unfold Dev.storedKey at hk
    rw [hr] at hk
    simp only [hb] at hk ⊢
    subst hk
    rfl

theorem Dev.Sane.withKey_fits (h : s.Sane) {f : PathAndCurve → Res} {a : Answer}
    (hf : ∀ k, s.storedKey = some k → (f k).Fits s a) :
    (s.withKey .conditionsNotSatisfied .conditionsNotSatisfied f).Fits s
      (if s.keyName = none then .refused 0x6985 else a) := by
  cases hk : s.storedKey with
  | none =>
    rw [h.withKey_none hk, if_pos (by simp [Dev.keyName, hk])]
    exact Dev.fail_fits _
  | some k =>
    rw [Dev.withKey_ok hk, if_neg (by simp [Dev.keyName, hk])]
    exact hf k hk

theorem Dev.Sane.cmdReset_fits (h : s.Sane) (hv : Serves env) (d : Bytes) :
    (s.cmdReset env (some d)).Fits s (if d.length < 4 then .refused 0x6700 else .served) := by
  unfold Dev.cmdReset
  dsimp only
  split
  · exact Dev.fail_fits _
  · have w1 := h.solid.main.takes (WaterMark.reset (u32OfBe (d.take 4)) false).encode
    have w2 := h.solid.test.takes (WaterMark.reset (u32OfBe (d.take 4)) false).encode
    have w3 := h.solid.chain.takes (chainIdEncode mainnetChainId)
    simp only [Dev.resetHwm, Dev.writeMain, Dev.writeTest, Dev.writeChain, hv.main, hv.test, hv.chain, w1, w2,
      Dev.afterWrite]
    split
    · rename_i hr
      exact absurd hr h.solid.chain.read
    · rw [w3]
      exact ⟨[], rfl⟩
    · exact ⟨[], rfl⟩

theorem Dev.Sane.cmdQueryMain_fits (h : s.Sane) : s.cmdQueryMain.Fits s .served := by
  unfold Dev.cmdQueryMain
  cases hr : s.main.read with
  | ok b => exact Dev.ok_fits _
  | err e =>
    rw [h.mark .main e hr]
    exact Dev.ok_fits _
  | panic => exact absurd hr h.solid.main.read

theorem Dev.Sane.cmdQueryAll_fits (h : s.Sane) : s.cmdQueryAll.Fits s .served := by
  unfold Dev.cmdQueryAll Dev.allHwm
  cases hr : s.main.read with
  | panic => exact absurd hr h.solid.main.read
  | err e =>
    rw [h.mark .main e hr]
    exact Dev.ok_fits _
  | ok b =>
    dsimp only
    cases hr : s.test.read with
    | panic => exact absurd hr h.solid.test.read
    | err e =>
      rw [h.mark .test e hr]
      exact Dev.ok_fits _
    | ok b =>
      dsimp only
      cases hr : s.chain.read with
      | panic => exact absurd hr h.solid.chain.read
      | err e =>
        rw [h.mark .chain e hr]
        exact Dev.ok_fits _
      | ok b => exact Dev.ok_fits _

variable {ev : Event} (hev : ev.Full) (hv : Serves env)
include hev hv

theorem Dev.Sane.cmdAuthorize_fits (h : s.Sane) (p1 p2 : UInt8) (d : Bytes) :
    (s.cmdAuthorize env p1 p2 (some d)).Fits s
      (if p1 = 0 then .refused 0x6985 else withKeyName 10 p2 d .asked) := by
  unfold Dev.cmdAuthorize
  by_cases h1 : p1 = 0
  · rw [if_pos h1, if_pos (by rw [h1]; decide)]
    exact Dev.fail_fits _
  · rw [if_neg h1, if_neg (by rw [UInt8.not_lt]; exact le_one_of_ne h1)]
    refine Dev.withPath_fits Dev.fail_fits fun k hc hp => ?_
    obtain ⟨key, a, -, -, ha, -⟩ := hv.address k
    simp only [ha]
    exact Dev.show_fits h.solid hv hev (.plain (newAddr_length' hv.works.sized ha) rfl)

theorem Dev.Sane.cmdDeauthorize_fits (h : s.Sane) (p1 : UInt8) :
    (s.cmdDeauthorize env p1).Fits s
      (if p1 = 0 then .refused 0x6985 else if s.keyName = none then .refused 0x6985 else .asked) := by
  unfold Dev.cmdDeauthorize
  by_cases h1 : p1 = 0
  · rw [if_pos h1, if_pos (by rw [h1]; decide)]
    exact Dev.fail_fits _
  · rw [if_neg h1, if_neg (by rw [UInt8.not_lt]; exact le_one_of_ne h1)]
    refine h.withKey_fits fun k hk => ?_
    obtain ⟨key, a, -, -, ha, -⟩ := hv.address k
    simp only [ha]
    exact Dev.show_fits h.solid hv hev (.plain (newAddr_length' hv.works.sized ha) rfl)

theorem Dev.Sane.cmdQueryAuth_fits (h : s.Sane) (wc : Bool) (p1 : UInt8) :
    (s.cmdQueryAuth env wc p1).Fits s
      (if s.keyName = none then .refused 0x6985 else if p1 = 0 then .served else .asked) := by
  unfold Dev.cmdQueryAuth
  refine h.withKey_fits fun k hk => ?_
  obtain ⟨key, a, -, -, ha, -⟩ := hv.address k
  simp only [ha]
  by_cases h1 : p1 = 0
  · rw [if_pos h1, if_neg (by rw [h1]; decide)]
    exact Dev.ok_fits _
  · rw [if_neg h1, if_pos (le_one_of_ne h1)]
    exact Dev.show_fits h.solid hv hev (.plain (newAddr_length' hv.works.sized ha) rfl)

theorem Dev.Sane.cmdAddr_fits (h : s.Sane) (c : Bool) (p2 : UInt8) (d : Bytes) :
    (s.cmdAddr env c p2 (some d)).Fits s (withKeyName 6 p2 d (if c then .asked else .served)) := by
  unfold Dev.cmdAddr
  refine Dev.withPath_fits Dev.fail_fits fun k hc hp => ?_
  obtain ⟨key, a, hk, ha, -, hb⟩ := hv.address k
  simp only [hk, ha]
  cases c
  · simp only [Bool.false_eq_true, if_false, View.accept, if_true, hb]
    exact Dev.ok_fits _
  · simp only [if_true]
    exact Dev.show_fits h.solid hv hev (.plain (newAddr_length hv.works.sized ha) rfl)

omit hev in
theorem Dev.cmdGetKey_fits (p2 : UInt8) (d : Bytes) :
    (s.cmdGetKey env p2 (some d)).Fits s (withKeyName 6 p2 d .served) := by
  unfold Dev.cmdGetKey
  refine Dev.withPath_fits Dev.fail_fits fun k hc hp => ?_
  obtain ⟨key, a, hk, ha, -, hb⟩ := hv.address k
  simp only [hk]
  exact Dev.ok_fits _

end

theorem preamble_cons (b : UInt8) (rest : Bytes) :
    (b = 0x01 ∧ Preamble.parse (b :: rest) = .ok (rest, .block)) ∨
    (b = 0x02 ∧ Preamble.parse (b :: rest) = .ok (rest, .endorsement)) ∨
    (b = 0x03 ∧ Preamble.parse (b :: rest) = .ok (rest, .operation)) ∨
    (b = 0x04 ∧ Preamble.parse (b :: rest) = .ok (rest, .tbd)) ∨
    (b = 0x05 ∧ Preamble.parse (b :: rest) = .ok (rest, .michelson)) ∨
    (b = 0x11 ∧ Preamble.parse (b :: rest) = .ok (rest, .tenderbakeBlock)) ∨
    (b = 0x12 ∧ Preamble.parse (b :: rest) = .ok (rest, .tenderbakePreendorsement)) ∨
    (b = 0x13 ∧ Preamble.parse (b :: rest) = .ok (rest, .tenderbakeEndorsement)) ∨
    ((b ≠ 0x01 ∧ b ≠ 0x02 ∧ b ≠ 0x03 ∧ b ≠ 0x04 ∧ b ≠ 0x05 ∧ b ≠ 0x11 ∧ b ≠ 0x12 ∧ b ≠ 0x13) ∧
      Preamble.parse (b :: rest) = .error .err) := by
  have he : Preamble.parse (b :: rest) =
      if b = 0x01 then .ok (rest, .block)
      else if b = 0x02 then .ok (rest, .endorsement)
      else if b = 0x03 then .ok (rest, .operation)
      else if b = 0x04 then .ok (rest, .tbd)
      else if b = 0x05 then .ok (rest, .michelson)
      else if b = 0x11 then .ok (rest, .tenderbakeBlock)
      else if b = 0x12 then .ok (rest, .tenderbakePreendorsement)
      else if b = 0x13 then .ok (rest, .tenderbakeEndorsement)
      else .error .err := rfl
  rw [he]
  repeat' split
  all_goals simp_all

theorem operationNew_cases (rest : Bytes) :
    (rest.length < 32 ∧ operationNew rest = .error .err) ∨
    (32 ≤ rest.length ∧ operationNew rest = .ok (rest.take 32, rest.drop 32)) := by
  by_cases h : rest.length < 32
  · left
    refine ⟨h, ?_⟩
    unfold operationNew nTake
    rw [if_neg (by omega)]
    rfl
  · right
    refine ⟨by omega, ?_⟩
    unfold operationNew nTake
    rw [if_pos (by omega)]
    rfl

/-- A path in front of other data. -/
theorem read_front {n : UInt8} {rest : Bytes} (hl : ¬ rest.length < 4 * n.toNat) :
    (1 ≤ n.toNat ∧ n.toNat ≤ 10) ↔ ∃ p, Path.read 10 ((n :: rest).take (1 + 4 * n.toNat)) = .ok p := by
  rw [← isPath_iff, show 1 + 4 * n.toNat = 4 * n.toNat + 1 by omega, List.take_succ_cons]
  simp only [IsPath, List.length_take]
  omega

section
variable {env : Env} {s : Dev} {ev : Event} (hev : ev.Full) (hv : Serves env)
include hev hv

theorem Dev.Sane.cmdSetup_fits (h : s.Sane) (p2 : UInt8) (d : Bytes) :
    (s.cmdSetup env p2 (some d)).Fits s (setupAnswer p2 d) := by
  unfold Dev.cmdSetup setupAnswer
  cases hc : Curve.ofByte p2 with
  | none =>
    rw [if_pos ((curve_code p2).mp hc)]
    exact Dev.fail_fits _
  | some c =>
    rw [if_neg (fun h => by rw [(curve_code p2).mpr h] at hc; cases hc)]
    dsimp only
    cases hd : d.drop 12 with
    | nil =>
      rw [if_pos (by have := congrArg List.length hd; simp at this; omega)]
      exact Dev.fail_fits _
    | cons n rest =>
      have hlen := congrArg List.length hd
      simp only [List.length_drop, List.length_cons] at hlen
      have hn : d.getD 12 0 = n := by
        have : d[12]? = some n := by
          have := congrArg (·[0]?) hd
          simpa using this
        simp [List.getD_eq_getElem?_getD, this]
      rw [if_neg (by omega), hn]
      dsimp only
      by_cases hr : rest.length < 4 * n.toNat
      · rw [if_pos hr, if_pos (by omega)]
        exact Dev.fail_fits _
      · rw [if_neg hr, if_neg (by omega)]
        have hf := read_front hr
        rw [← hd] at hf
        change _ ↔ ∃ p, Path.read 10 (slice d 12 (1 + 4 * n.toNat)) = .ok p at hf
        have h10 : bip32MaxLength = 10 := rfl
        rw [h10]
        cases hp : Path.read 10 (slice d 12 (1 + 4 * n.toNat)) with
        | error e =>
          rw [hp] at hf
          rw [if_neg (fun h => by obtain ⟨p, h⟩ := hf.mp h; cases h)]
          exact Dev.fail_fits _
        | ok p =>
          rw [if_pos (hf.mpr ⟨p, hp⟩)]
          obtain ⟨key, a, -, -, ha, -⟩ := hv.address ⟨c, p⟩
          simp only [ha]
          exact Dev.show_fits h.solid hv hev (.plain (newAddr_length' hv.works.sized ha) rfl)

omit hev in
theorem Dev.cmdHmac_fits (p2 : UInt8) (d : Bytes) : (s.cmdHmac env p2 (some d)).Fits s (hmacAnswer p2 d) := by
  unfold Dev.cmdHmac hmacAnswer
  cases hc : Curve.ofByte p2 with
  | none =>
    rw [if_pos ((curve_code p2).mp hc)]
    exact Dev.fail_fits _
  | some c =>
    rw [if_neg (fun h => by rw [(curve_code p2).mpr h] at hc; cases hc)]
    dsimp only
    cases d with
    | nil => exact Dev.fail_fits _
    | cons n rest =>
      rw [if_neg (by simp)]
      simp only [List.getD_cons_zero, List.length_cons]
      by_cases hr : rest.length < 4 * n.toNat
      · rw [if_pos hr, if_pos (by omega)]
        exact Dev.fail_fits _
      · rw [if_neg hr, if_neg (by omega)]
        have hf := read_front hr
        have h10 : bip32MaxLength = 10 := rfl
        rw [h10]
        cases hp : Path.read 10 ((n :: rest).take (1 + 4 * n.toNat)) with
        | error e =>
          rw [hp] at hf
          rw [if_neg (fun h => by obtain ⟨p, h⟩ := hf.mp h; cases h)]
          exact Dev.fail_fits _
        | ok p =>
          rw [if_pos (hf.mpr ⟨p, hp⟩)]
          obtain ⟨sig, h1⟩ := Option.isSome_iff_exists.mp (hv.sign c p hmacKeySha256)
          obtain ⟨k, h2⟩ := Option.isSome_iff_exists.mp (hv.sha512 sig)
          obtain ⟨m, h3⟩ := Option.isSome_iff_exists.mp (hv.hmac k ((n :: rest).drop (1 + 4 * n.toNat)))
          simp only [h1, h2, h3]
          exact Dev.ok_fits _

/-! ### Signing -/

/-- The complete message of a signing command of the wallet kind. -/
theorem Dev.startSign_fits (hs : s.Solid) (hh : Bool) (q2 : UInt8) (first msg : Bytes) (ref : MemRef) :
    (s.startSign env hh q2 first msg ref).Fits s (walletAnswer q2 first msg) := by
  unfold Dev.startSign walletAnswer
  refine Dev.withPath_fits Dev.fail_fits fun k hc hp => ?_
  obtain ⟨digest, hd⟩ := Option.isSome_iff_exists.mp (hv.works.blake2b msg)
  simp only [hd]
  have hs' : Dev.Solid { s with path := some (k.path, k.curve) } := ⟨hs.1, hs.2, hs.3, hs.4⟩
  have hfail : ∀ e : ApduError, (Dev.fail { s with path := some (k.path, k.curve) } e).Fits s
      (.refused e.code.toNat) := fun e => ⟨rfl, ⟨rfl, rfl, rfl, rfl⟩, rfl, rfl⟩
  have hshow : ∀ r, (Dev.show env (.sign hh digest r msg) { s with path := some (k.path, k.curve) }).Fits s .asked := by
    intro r
    have := Dev.show_fits hs' hv hev (v := .sign hh digest r msg)
      ⟨hv.works.sized.blake2b hd, fun _ e => (by cases e)⟩
    exact ⟨this.out, ⟨this.flash.main, this.flash.test, this.flash.chain, this.flash.key⟩⟩
  cases msg with
  | nil => exact hfail .dataInvalid
  | cons b rest =>
    rcases preamble_cons b rest with ⟨rfl, h⟩ | ⟨rfl, h⟩ | ⟨rfl, h⟩ | ⟨rfl, h⟩ | ⟨rfl, h⟩ | ⟨rfl, h⟩ | ⟨rfl, h⟩ | ⟨rfl, h⟩ |
      ⟨⟨n1, n2, n3, n4, n5, n6, n7, n8⟩, h⟩ <;> simp only [h]
    · exact hfail .commandNotAllowed
    · exact hfail .commandNotAllowed
    · rcases operationNew_cases rest with ⟨hl, hx⟩ | ⟨hl, hx⟩
      · rw [if_pos trivial, if_pos hl, hx]
        exact hfail .dataInvalid
      · rw [if_pos trivial, if_neg (by omega), hx]
        exact hshow _
    · exact hfail .commandNotAllowed
    · exact hshow _
    · exact hfail .commandNotAllowed
    · exact hfail .commandNotAllowed
    · exact hfail .commandNotAllowed
    · rw [if_neg n3, if_neg n5, if_neg (by simp [n1, n2, n4, n6, n7, n8])]
      exact hfail .dataInvalid

end

/-! ### Reveals and delegations -/

theorem isAccountField_iff {b : Bytes} : IsAccountField b ↔ ∃ p : Pkh, b = p.encode ∧ p.WF := by
  constructor
  · rintro ⟨kind, hash, rfl, hl⟩
    have h := Pkh.ofSpec_encode ⟨kind, hash⟩
    exact ⟨Pkh.ofSpec ⟨kind, hash⟩, h.symm, Pkh.ofSpec_wf hl⟩
  · rintro ⟨⟨c, hash⟩, rfl, hl, hc⟩
    cases c with
    | ed25519 => exact absurd rfl hc
    | bip32Ed25519 => exact ⟨.ed25519, hash, rfl, hl⟩
    | secp256k1 => exact ⟨.secp256k1, hash, rfl, hl⟩
    | secp256r1 => exact ⟨.p256, hash, rfl, hl⟩

theorem isManagerFields_iff {b : Bytes} : IsManagerFields b ↔ ∃ m : Manager, b = m.encode ∧ m.WF := by
  constructor
  · rintro ⟨source, fee, counter, gas, storage, rfl, hs, h1, h2, h3, h4⟩
    obtain ⟨p, rfl, hp⟩ := isAccountField_iff.mp hs
    exact ⟨⟨p, ⟨fee, none⟩, ⟨counter, none⟩, ⟨gas, none⟩, ⟨storage, none⟩⟩, rfl, hp, ⟨h1, rfl⟩, ⟨h2, rfl⟩, ⟨h3, rfl⟩,
      ⟨h4, rfl⟩⟩
  · rintro ⟨m, rfl, hp, h1, h2, h3, h4⟩
    exact ⟨_, _, _, _, _, rfl, isAccountField_iff.mpr ⟨_, rfl, hp⟩, h1.1, h2.1, h3.1, h4.1⟩

theorem beginsReveal_iff {b : Bytes} : BeginsReveal b ↔ ∃ rem r, Reveal.fromBytes b = .ok (rem, r) := by
  simp only [Reveal.fromBytes_ok]
  constructor
  · rintro ⟨m, kind, key, rest, rfl, hm, hl⟩
    obtain ⟨m, rfl, hwf⟩ := isManagerFields_iff.mp hm
    refine ⟨rest, ⟨m, KeyKind.curve kind, key⟩, ?_, hwf, ?_, ?_⟩ <;> cases kind <;>
      simp_all [Reveal.encode, Curve.opTag, KeyKind.tag, KeyKind.curve, KeyKind.keyLength, keyLen]
  · rintro ⟨rest, ⟨m, c, key⟩, rfl, hm, hl, hc⟩
    have hm' := isManagerFields_iff.mpr ⟨m, rfl, hm⟩
    cases c with
    | ed25519 => exact absurd rfl hc
    | bip32Ed25519 => exact ⟨m.encode, .ed25519, key, rest, by simp [Reveal.encode, Curve.opTag, KeyKind.tag], hm', hl⟩
    | secp256k1 => exact ⟨m.encode, .secp256k1, key, rest, by simp [Reveal.encode, Curve.opTag, KeyKind.tag], hm', hl⟩
    | secp256r1 => exact ⟨m.encode, .p256, key, rest, by simp [Reveal.encode, Curve.opTag, KeyKind.tag], hm', hl⟩

theorem beginsDelegation_iff {b : Bytes} : BeginsDelegation b ↔ ∃ rem r, Delegation.fromBytes b = .ok (rem, r) := by
  simp only [Delegation.fromBytes_ok]
  constructor
  · rintro ⟨m, flag, rest, rfl, hm, hd⟩
    obtain ⟨m, rfl, hwf⟩ := isManagerFields_iff.mp hm
    by_cases hf : flag = 0xFF
    · obtain ⟨acc, more, rfl, ha⟩ := hd hf
      obtain ⟨p, rfl, hp⟩ := isAccountField_iff.mp ha
      subst hf
      exact ⟨more, ⟨m, some p⟩, ⟨0, by decide, by simp [Delegation.encode, encodeOptionWith]⟩, hwf, hp⟩
    · exact ⟨rest, ⟨m, none⟩, ⟨flag, hf, by simp [Delegation.encode, encodeOptionWith]⟩, hwf, trivial⟩
  · rintro ⟨rest, ⟨m, d⟩, ⟨flag, hf, rfl⟩, hm, hd⟩
    have hm' := isManagerFields_iff.mpr ⟨m, rfl, hm⟩
    cases d with
    | none => exact ⟨m.encode, flag, rest, by simp [Delegation.encode, encodeOptionWith], hm', fun h => absurd h hf⟩
    | some p =>
      exact ⟨m.encode, 0xFF, p.encode ++ rest, by simp [Delegation.encode, encodeOptionWith], hm',
        fun _ => ⟨_, rest, rfl, isAccountField_iff.mpr ⟨p, rfl, hd⟩⟩⟩

theorem parseNext_cons (b : UInt8) (r : Bytes) :
    parseNext (b :: r) = (Op.fromBytes (b :: r)).map some := by
  show (do let x ← Op.fromBytes (b :: r); return some x) = _
  cases Op.fromBytes (b :: r) <;> rfl

theorem Op.fromBytes_cons (t : UInt8) (rem : Bytes) : Op.fromBytes (t :: rem) =
    if t = 0x00 then nMap .endorsement (Endorsement.fromBytes rem)
    else if t = 0x01 ∨ t = 0x02 ∨ t = 0x03 then nMap (fun _ => .anonymous) (anonymousFromBytes t rem)
    else if t = 0x04 then nMap .activateAccount (ActivateAccount.fromBytes rem)
    else if t = 0x05 then nMap .proposals (Proposals.fromBytes rem)
    else if t = 0x06 then nMap .ballot (Ballot.fromBytes rem)
    else if t = 0x0A then nMap .endorsementWithSlot (EndorsementWithSlot.fromBytes rem)
    else if t = 0x11 then nMap .failingNoop (FailingNoop.fromBytes rem)
    else if t = 0x6B then nMap .reveal (Reveal.fromBytes rem)
    else if t = 0x6C then nMap .transfer (Transfer.fromBytes rem)
    else if t = 0x6D then nMap .origination (Origination.fromBytes rem)
    else if t = 0x6E then nMap .delegation (Delegation.fromBytes rem)
    else .ok ([], .unknown rem) := rfl

theorem Op.tag_of_kind {t : UInt8} {body rem : Bytes} {op : Op} (h : Op.fromBytes (t :: body) = .ok (rem, op)) :
    (∀ r, op = .reveal r → t = 0x6B) ∧ (∀ d, op = .delegation d → t = 0x6E) := by
  rw [Op.fromBytes_cons] at h
  repeat' split at h
  all_goals first
    | (obtain ⟨a, -, rfl⟩ := nMap_ok.mp h; simp_all)
    | (cases h; simp)

section
variable {env : Env} {s : Dev} {ev : Event} (hev : ev.Full) (hv : Serves env)
include hev hv

/-- Reveals and delegations. -/
theorem Dev.handleDelegation_fits (hs : s.Solid) (hh : Bool) (digest rem msg : Bytes) (ref : MemRef) :
    (s.handleDelegation env hh digest rem msg ref).Fits s (bakerOperationAnswer rem) := by
  unfold Dev.handleDelegation bakerOperationAnswer
  rcases operationNew_cases rem with ⟨hl, hx⟩ | ⟨hl, hx⟩ <;> rw [hx] <;> dsimp only
  · rw [if_pos hl]
    exact Dev.fail_fits _
  rw [if_neg (by omega)]
  have hshow : ∀ op : Op, op.WF → (s.show env (.bakingSign hh digest ref op msg)).Fits s .asked := fun op hop =>
    Dev.show_fits hs hv hev ⟨hop, fun _ e => (by cases e)⟩
  cases hd : rem.drop 32 with
  | nil => exact Dev.fail_fits _
  | cons t body =>
    simp only [parseNext_cons]
    by_cases h1 : t = 0x6B
    · rw [if_pos h1]
      subst h1
      have he : Op.fromBytes (0x6B :: body) = nMap .reveal (Reveal.fromBytes body) := rfl
      cases hr : Reveal.fromBytes body with
      | error e =>
        have hno : ¬ BeginsReveal body := fun h => by
          obtain ⟨x, y, h⟩ := beginsReveal_iff.mp h
          rw [hr] at h
          cases h
        have hcalm := parseNext_calm (0x6B :: body)
        rw [parseNext_cons] at hcalm
        rw [he, hr] at hcalm ⊢
        cases e with
        | panic => exact absurd rfl hcalm
        | err => exact .inr ⟨hno, Dev.fail_fits _⟩
      | ok x =>
        have hwf := Op.fromBytes_WF (i := 0x6B :: body) (rem := x.1) (op := .reveal x.2) (by rw [he, hr]; rfl)
        rw [he, hr]
        exact .inl ⟨beginsReveal_iff.mpr ⟨_, _, hr⟩, hshow _ hwf⟩
    rw [if_neg h1]
    by_cases h2 : t = 0x6E
    · rw [if_pos h2]
      subst h2
      have he : Op.fromBytes (0x6E :: body) = nMap .delegation (Delegation.fromBytes body) := rfl
      cases hr : Delegation.fromBytes body with
      | error e =>
        have hno : ¬ BeginsDelegation body := fun h => by
          obtain ⟨x, y, h⟩ := beginsDelegation_iff.mp h
          rw [hr] at h
          cases h
        have hcalm := parseNext_calm (0x6E :: body)
        rw [parseNext_cons] at hcalm
        rw [he, hr] at hcalm ⊢
        cases e with
        | panic => exact absurd rfl hcalm
        | err => exact .inr ⟨hno, Dev.fail_fits _⟩
      | ok x =>
        have hwf := Op.fromBytes_WF (i := 0x6E :: body) (rem := x.1) (op := .delegation x.2) (by rw [he, hr]; rfl)
        rw [he, hr]
        exact .inl ⟨beginsDelegation_iff.mpr ⟨_, _, hr⟩, hshow _ hwf⟩
    rw [if_neg h2]
    have hcalm := parseNext_calm (t :: body)
    rw [parseNext_cons] at hcalm
    cases hr : Op.fromBytes (t :: body) with
    | error e =>
      rw [hr] at hcalm
      cases e with
      | panic => exact absurd rfl hcalm
      | err => exact .inl (Dev.fail_fits _)
    | ok x =>
      obtain ⟨r, op⟩ := x
      obtain ⟨n1, n2⟩ := Op.tag_of_kind hr
      cases op with
      | reveal r => exact absurd (n1 _ rfl) h1
      | delegation r => exact absurd (n2 _ rfl) h2
      | _ => exact .inr (Dev.fail_fits _)

omit hev in
/-- Consensus messages. -/
theorem Dev.Sane.autoSign_fits (h : s.Sane) (hh : Bool) (digest msg : Bytes) {k : PathAndCurve}
    (hk : s.storedKey = some k) {dec : WaterMark → Except HErr WaterMark}
    (hdec : dec = fun w => if HasShortFitness msg then .error .panic else specDecide msg w) :
    (s.autoSign env hh digest msg dec).Fits s (consensusAnswer s.lastItem msg) := by
  unfold consensusAnswer Dev.lastItem
  cases hr : s.main.read with
  | panic => exact absurd hr h.solid.main.read
  | err e =>
    simp only [Dev.autoSign, Dev.withRead, hr]
    exact Dev.fail_fits _
  | ok b =>
    subst hdec
    dsimp only
    by_cases hsh : HasShortFitness msg
    · rw [if_pos hsh]
      simp only [Dev.autoSign, Dev.withRead, hr, if_pos hsh]
      rfl
    · rw [if_neg hsh]
      simp only [if_neg hsh]
      change (s.autoSign env hh digest msg (specDecide msg)).Fits s _
      cases hi : consensusItem msg with
      | none =>
        simp only [Dev.autoSign, Dev.withRead, hr, specDecide, hi]
        exact Dev.fail_fits _
      | some it =>
        dsimp only
        by_cases hc : it.level < 2 ^ 31 ∧ Item.lt (WaterMark.decode b).item it
        · rw [if_pos hc]
          obtain ⟨sig, hsig⟩ := Option.isSome_iff_exists.mp (hv.sign k.curve k.path digest)
          obtain ⟨h1, h2⟩ := Dev.autoSign_ok (h := hh) hk hi hr hc.1 hc.2 hv.main hsig
          refine ⟨sigReply hh digest sig, ⟨k.curve, k.path, digest, msg, sig⟩, ?_, ?_⟩
          · unfold Res.deliver
            rw [h1, h2]
            rfl
          · rfl
        · rw [if_neg hc]
          simp only [Dev.autoSign, Dev.withRead, hr, specDecide, hi, if_neg hc]
          exact Dev.fail_fits _

/-- The complete message of a signing command of the baking kind. -/
theorem Dev.Sane.bakerSign_fits (h : s.Sane) (hh : Bool) (q2 : UInt8) (first msg : Bytes) (ref : MemRef) :
    (s.bakerSign env hh q2 first msg ref).Fits s (bakerAnswer s.keyName s.lastItem q2 first msg) := by
  unfold Dev.bakerSign bakerAnswer
  refine Dev.withPath_fits Dev.fail_fits fun k hc hp => ?_
  cases hk : s.storedKey with
  | none =>
    rw [h.withKey_none hk]
    simp only [Dev.keyName, hk, Option.map_none]
    exact Dev.fail_fits _
  | some k' =>
    rw [Dev.withKey_ok hk]
    simp only [Dev.keyName, hk, Option.map_some]
    have hname : (curveCode k'.curve, UInt8.ofNat k'.path.length :: k'.path.flatMap be32) = (q2, first) ↔ k' = k := by
      obtain ⟨p1, p2, p3, p4⟩ := Path.read_ok.mp hp
      have hq := curveCode_of hc
      constructor
      · intro e
        obtain ⟨e1, e2⟩ := Prod.mk.inj e
        have hl : k'.path.length = k.path.length := by
          have := congrArg List.length (e2.trans p4)
          simpa [flatMap_be32_length] using this
        have hr : Path.read bip32MaxLength first = .ok k'.path := by
          rw [← e2]
          exact Path.read_ok.mpr ⟨by omega, by omega, by omega, rfl⟩
        have hc' : Curve.ofByte q2 = some k'.curve := by rw [← e1]; exact curveCode_ofByte _
        rw [hp] at hr
        rw [hc] at hc'
        obtain ⟨c, p⟩ := k
        obtain ⟨c', p'⟩ := k'
        cases hr
        cases hc'
        rfl
      · rintro rfl
        rw [hq, p4]
    by_cases hne : k' = k
    swap
    · rw [if_pos hne, if_pos (fun e => hne (hname.mp e))]
      exact Dev.fail_fits _
    rw [if_neg (by simpa using hne), if_neg (by simpa using hname.mpr hne)]
    obtain ⟨digest, hdig⟩ := Option.isSome_iff_exists.mp (hv.works.blake2b msg)
    simp only [hdig]
    cases msg with
    | nil => exact Dev.fail_fits _
    | cons b rest =>
      have hend : ∀ {p : Preamble}, Preamble.parse (b :: rest) = .ok (rest, p) → (b ≠ 0x01 ∧ b ≠ 0x11) →
          (p = .endorsement ∨ p = .tenderbakePreendorsement ∨ p = .tenderbakeEndorsement) →
          endorsementDecide p rest =
            fun w => if HasShortFitness (b :: rest) then .error .panic else specDecide (b :: rest) w := by
        intro p hx hb hp
        funext w
        rw [endorsementDecide_eq hx hp, if_neg (fun h => by have := h.1; simp_all)]
      have hblk : ∀ {p : Preamble}, Preamble.parse (b :: rest) = .ok (rest, p) → (b = 0x01 ∨ b = 0x11) →
          (p = .block ∨ p = .tenderbakeBlock) →
          blockDecide p rest =
            fun w => if HasShortFitness (b :: rest) then .error .panic else specDecide (b :: rest) w := by
        intro p hx hb hp
        funext w
        rw [blockDecide_eq hx hp]
        have : blockAborts (b :: rest) ↔ HasShortFitness (b :: rest) := by
          unfold blockAborts HasShortFitness
          constructor
          · rintro ⟨h1, h2, h3, h4, h5⟩
            exact ⟨by simpa using hb, h1, h3, h2, h4, h5⟩
          · rintro ⟨-, h1, h3, h2, h4, h5⟩
            exact ⟨h1, h2, h3, h4, h5⟩
        simp only [this]
      rcases preamble_cons b rest with ⟨rfl, hx⟩ | ⟨rfl, hx⟩ | ⟨rfl, hx⟩ | ⟨rfl, hx⟩ | ⟨rfl, hx⟩ | ⟨rfl, hx⟩ |
        ⟨rfl, hx⟩ | ⟨rfl, hx⟩ | ⟨hb, hx⟩ <;> rw [hx] <;> dsimp only
      · rw [if_pos (by simp [isConsensusMagic])]
        exact h.autoSign_fits hv hh digest _ hk (hblk hx (by decide) (by simp))
      · rw [if_pos (by simp [isConsensusMagic])]
        exact h.autoSign_fits hv hh digest _ hk (hend hx (by decide) (by simp))
      · rw [if_neg (by simp [isConsensusMagic])]
        exact Dev.handleDelegation_fits hev hv h.solid hh digest rest _ _
      · rw [if_neg (by simp [isConsensusMagic])]
        exact Dev.fail_fits _
      · rw [if_neg (by simp [isConsensusMagic])]
        exact Dev.fail_fits _
      · rw [if_pos (by simp [isConsensusMagic])]
        exact h.autoSign_fits hv hh digest _ hk (hblk hx (by decide) (by simp))
      · rw [if_pos (by simp [isConsensusMagic])]
        exact h.autoSign_fits hv hh digest _ hk (hend hx (by decide) (by simp))
      · rw [if_pos (by simp [isConsensusMagic])]
        exact h.autoSign_fits hv hh digest _ hk (hend hx (by decide) (by simp))
      · obtain ⟨b1, b2, b3, b4, b5, b6, b7, b8⟩ := hb
        rw [if_neg (by simp [isConsensusMagic, b1, b2, b6, b7, b8]), if_neg b3, if_neg (by simp [b4, b5])]
        exact Dev.fail_fits _

end

/-- The upload buffer is none of what answers speak of. -/
theorem Res.Fits.upl {s : Dev} {r : Res} {a : Spec.Answer} {u u' : Upl} (h : r.Fits { s with upl := u } a) :
    ({ r with st := { r.st with upl := u' } } : Res).Fits s a := by
  have hout : ({ r with st := { r.st with upl := u' } } : Res).deliver.2 = r.deliver.2 := by
    unfold Res.deliver; cases r.out <;> rfl
  have hst : ({ r with st := { r.st with upl := u' } } : Res).deliver.1 = { r.deliver.1 with upl := u' } := by
    unfold Res.deliver; cases r.out <;> rfl
  have hr : ∀ w, Refuses { s with upl := u } r.deliver.1 r.deliver.2 w →
      Refuses s { r.deliver.1 with upl := u' } r.deliver.2 w := fun w h =>
    ⟨h.out, ⟨h.flash.1, h.flash.2, h.flash.3, h.flash.4⟩, h.view, h.zui⟩
  have ha : AsksUser { s with upl := u } r.deliver.1 r.deliver.2 →
      AsksUser s { r.deliver.1 with upl := u' } r.deliver.2 := fun h =>
    ⟨h.out, ⟨h.flash.1, h.flash.2, h.flash.3, h.flash.4⟩⟩
  unfold Res.Fits at h ⊢
  rw [hout, hst]
  cases a with
  | refused w => exact hr w h
  | served => exact h
  | signed m => exact h
  | asked => exact ha h
  | askedIf p => exact h.imp (And.imp_right ha) (And.imp_right (hr _))
  | declined => exact h.imp (hr _) (hr _)
  | stops => exact h

theorem Upl.upload_refused {u : Upl} {o : Option (Session Accessor)} (h : UplInv u o) (k : Packet Accessor) {r : Role}
    (hr : role k.p1 = some r) (hno : r ≠ .opening) :
    match o with
    | none => (u.upload .done .done k.family k.p1 k.p2 (some k.payload)).2 = .err .executionError
    | some s =>
      (s.family ≠ k.family → (u.upload .done .done k.family k.p1 k.p2 (some k.payload)).2 = .err .busy) ∧
      (s.family = k.family → uploadCapacity < 1 + s.first.length + s.rest.length + k.payload.length →
        (u.upload .done .done k.family k.p1 k.p2 (some k.payload)).2 = .err .dataInvalid) := by
  have ht := tryEither_role k.p1
  rw [hr] at ht
  obtain ⟨hwf, hram, hflash, hs⟩ := h
  have hfull : ∀ s : Session Accessor, u.buf.readExact = s.p2 :: (s.first ++ s.rest) →
      uploadCapacity < 1 + s.first.length + s.rest.length + k.payload.length →
      (u.buf.write .done .done k.payload).2 = .err := by
    intro s hre hbig
    have hcnt : u.buf.cnt = 1 + s.first.length + s.rest.length := by
      rw [← hwf.readExact_length, hre]; simp; omega
    exact SwapBuf.write_full hwf (by rw [hcnt, hflash]; omega)
  cases r with
  | opening => exact absurd rfl hno
  | middle =>
    obtain ⟨t, ht, hi, hn⟩ := ht
    simp only [Upl.upload, ht, hi, hn, if_true, Bool.false_eq_true, if_false]
    cases o with
    | none =>
      simp only at hs
      simp only [lockAcquire, hs]
      rfl
    | some s =>
      obtain ⟨hl, hre, hil⟩ := hs
      dsimp only
      constructor
      · intro hfam
        have hacq : lockAcquire u.lock k.family = .error .busy := by simp [lockAcquire, hl, hfam]
        simp only [hacq]
        rfl
      · intro hfam hbig
        have hacq : lockAcquire u.lock k.family = .ok () := by simp [lockAcquire, hl, hfam]
        simp only [hacq, hfull s hre hbig, UplRes.ofWrite]
  | closing =>
    obtain ⟨t, ht, hi, hn, hla⟩ := ht
    simp only [Upl.upload, ht, hi, hn, hla, if_true, Bool.false_eq_true, if_false]
    cases o with
    | none =>
      simp only at hs
      simp only [lockAcquire, hs]
      rfl
    | some s =>
      obtain ⟨hl, hre, hil⟩ := hs
      dsimp only
      constructor
      · intro hfam
        have hacq : lockAcquire u.lock k.family = .error .busy := by simp [lockAcquire, hl, hfam]
        simp only [hacq]
        rfl
      · intro hfam hbig
        have hacq : lockAcquire u.lock k.family = .ok () := by simp [lockAcquire, hl, hfam]
        simp only [hacq, hfull s hre hbig, UplRes.ofWrite]

theorem packetAnswer_later {key : Option (UInt8 × Bytes)} {mark : Option Item} {o : Option (Session Accessor)}
    {k : Packet Accessor} {r : Role} (hr : role k.p1 = some r) (hop : r ≠ .opening) :
    packetAnswer key mark o k =
      match o with
      | none => .refused 0x6400
      | some s =>
        if s.family ≠ k.family then .refused 0x9001
        else if uploadCapacity < 1 + s.first.length + s.rest.length + k.payload.length then .refused 0x6984
        else if r = .middle then .served
        else
          if k.family = .baking then bakerAnswer key mark s.p2 s.first (s.rest ++ k.payload)
          else walletAnswer s.p2 s.first (s.rest ++ k.payload) := by
  unfold packetAnswer
  rw [hr]
  cases r <;> first | exact absurd rfl hop | rfl

/-- A packet of a signing command. -/
theorem Dev.cmdUpload_fits {env : Env} {s : Dev} (hv : Serves env) {o : Option (Session Accessor)} (hi : UplInv s.upl o)
    (k : Packet Accessor) (hl : k.payload.length ≤ 255) {key : Option (UInt8 × Bytes)} {mark : Option Item}
    {finish : UInt8 → Bytes → Bytes → MemRef → Dev → Res}
    (hfin : ∀ u q2 first data ref, (finish q2 first data ref { s with upl := u }).Fits { s with upl := u }
      (if k.family = .baking then bakerAnswer key mark q2 first data else walletAnswer q2 first data)) :
    (s.cmdUpload env k.family k.p1 k.p2 (some k.payload) finish).Fits s (packetAnswer key mark o k) := by
  have hf := Upl.upload_fed hi k hl
  have hcase : ∀ e, (s.upl.upload .done .done k.family k.p1 k.p2 (some k.payload)).2 = .err e →
      (s.cmdUpload env k.family k.p1 k.p2 (some k.payload) finish).Fits s (.refused e.code.toNat) := by
    intro e he
    simp only [Dev.cmdUpload, hv.copy, hv.append, he]
    exact ⟨rfl, ⟨rfl, rfl, rfl, rfl⟩, rfl, rfl⟩
  have hmore : (s.upl.upload .done .done k.family k.p1 k.p2 (some k.payload)).2 = .more →
      (s.cmdUpload env k.family k.p1 k.p2 (some k.payload) finish).Fits s .served := by
    intro he
    simp only [Dev.cmdUpload, hv.copy, hv.append, he]
    exact ⟨[], rfl⟩
  unfold packetAnswer
  cases hr : role k.p1 with
  | none =>
    have ht := tryEither_role k.p1
    rw [hr] at ht
    exact hcase .invalidP1P2 (by simp only [Upl.upload, ht])
  | some r =>
    by_cases hop : r = .opening
    · subst hop
      have h2 : (feed o k).2 = none := by unfold feed; rw [hr]
      have := (hf.none h2).1
      rw [if_pos (by simp [acks, hr])] at this
      exact hmore this
    · have hu := Upl.upload_refused hi k hr hop
      have hgo := packetAnswer_later (key := key) (mark := mark) (o := o) hr hop
      unfold packetAnswer at hgo
      rw [hr] at hgo
      rw [hgo]
      cases o with
      | none => exact hcase .executionError hu
      | some ss =>
        obtain ⟨hu1, hu2⟩ := hu
        dsimp only
        by_cases hfam : ss.family = k.family
        swap
        · rw [if_pos hfam]
          exact hcase .busy (hu1 hfam)
        rw [if_neg (by simpa using hfam)]
        by_cases hbig : uploadCapacity < 1 + ss.first.length + ss.rest.length + k.payload.length
        · rw [if_pos hbig]
          exact hcase .dataInvalid (hu2 hfam hbig)
        rw [if_neg hbig]
        have hfit : 1 + ss.first.length + ss.rest.length + k.payload.length ≤ uploadCapacity := by omega
        cases r with
        | opening => exact absurd rfl hop
        | middle =>
          rw [if_pos rfl]
          have h2 : feed (some ss) k = (some { ss with rest := ss.rest ++ k.payload }, none) := by
            simp only [feed, hr, hfam, hfit, and_self, if_true]
          have := (hf.none (by rw [h2])).1
          rw [if_pos (by simp [acks, hr, hfam, hfit])] at this
          exact hmore this
        | closing =>
          rw [if_neg (by simp)]
          have h2 : feed (some ss) k = (none, some (ss.p2, ss.first, ss.rest ++ k.payload)) := by
            simp only [feed, hr, hfam, hfit, and_self, if_true]
          obtain ⟨ref, hres, -, -, -⟩ := hf.some ss.p2 ss.first (ss.rest ++ k.payload) (by rw [h2])
          simp only [Dev.cmdUpload, hv.copy, hv.append, hres]
          exact (hfin _ ss.p2 ss.first (ss.rest ++ k.payload) ref).upl

theorem Carries.unknown {cfg : Config} {env : Env} {s : Dev} {ev : Event} {ins p1 p2 : UInt8} {data : Bytes}
    (h : Carries ev ins p1 p2 data) (hrun : s.running = true) (hc : command cfg.build ins = none) :
    s.step cfg env ev = (s.fail .commandNotAllowed).deliver := by
  obtain ⟨tail, rfl, hl⟩ := h.ex
  unfold Dev.step
  dsimp only
  rw [if_pos hrun]
  unfold Dev.dispatch
  rw [if_neg (by simp; omega), if_neg (by simp)]
  have : ([0x80, ins, p1, p2, UInt8.ofNat data.length] ++ data ++ tail).getD 1 0 = ins := rfl
  simp only [this, hc]

/-- The instructions of a build. -/
theorem command_cases (b : Build) (ins : UInt8) :
    (command b ins = none ∧ ∀ key mark sess p1 p2 data, answer b key mark sess ins p1 p2 data = .refused 0x6986) ∨
    ∃ c, command b ins = some c ∧ ∀ key mark sess p1 p2 data, answer b key mark sess ins p1 p2 data =
      match c with
      | .reset => if data.length < 4 then .refused 0x6700 else .served
      | .queryMain | .queryAll => .served
      | .authorize => if p1 = 0 then .refused 0x6985 else withKeyName 10 p2 data .asked
      | .deauthorize => if p1 = 0 then .refused 0x6985 else if key = none then .refused 0x6985 else .asked
      | .queryAuth _ => if key = none then .refused 0x6985 else if p1 = 0 then .served else .asked
      | .setup => setupAnswer p2 data
      | .hmac => hmacAnswer p2 data
      | .bakerSign _ => packetAnswer key mark sess ⟨.baking, p1, p2, data⟩
      | .sign _ => packetAnswer key mark sess ⟨.sign, p1, p2, data⟩
      | .legacyVersion | .git | .version => .served
      | .getKey => withKeyName 6 p2 data .served
      | .promptAddr => withKeyName 6 p2 data .asked
      | .getAddr => withKeyName 6 p2 data (if p1 = 0 then .served else .asked) := by
  by_cases h : ins ∈ [(0x00 : UInt8), 0x01, 0x02, 0x03, 0x04, 0x05, 0x06, 0x07, 0x08, 0x09, 0x0A, 0x0B, 0x0C, 0x0D, 0x0E,
    0x0F, 0x10, 0x11, 0x12, 0xA1, 0xA7, 0xAC, 0xAD, 0xAF]
  · simp only [List.mem_cons, List.not_mem_nil, or_false] at h
    rcases h with rfl | rfl | rfl | rfl | rfl | rfl | rfl | rfl | rfl | rfl | rfl | rfl | rfl | rfl | rfl | rfl | rfl |
      rfl | rfl | rfl | rfl | rfl | rfl | rfl <;> cases b <;>
      first
        | exact .inr ⟨_, rfl, fun _ _ _ _ _ _ => rfl⟩
        | exact .inl ⟨rfl, fun _ _ _ _ _ _ => rfl⟩
  · simp only [List.mem_cons, List.not_mem_nil, or_false, not_or] at h
    refine .inl ⟨?_, fun _ _ _ _ _ _ => ?_⟩
    · cases b <;> simp [command, command.common, h]
    · cases b <;> simp [answer, h]

section
variable {cfg : Config} {env : Env} {s : Dev} {ev : Event} {o : Option (Session Accessor)}

/-- Every request on a device in working order. -/
theorem Dev.Sane.step_fits (h : s.Sane) (hrun : s.running = true) (hi : UplInv s.upl o) (hv : Serves env)
    {ins p1 p2 : UInt8} {data : Bytes} (hc : Carries ev ins p1 p2 data) :
    Fits s (s.step cfg env ev).1 (s.step cfg env ev).2 (answer cfg.build s.keyName s.lastItem o ins p1 p2 data) := by
  have hev := hc.full
  have hl := hc.length
  rcases command_cases cfg.build ins with ⟨hn, ha⟩ | ⟨c, hn, ha⟩ <;> rw [ha]
  · rw [hc.unknown hrun hn]
    exact Dev.fail_fits _
  · rw [hc.step hrun hn]
    change (s.exec cfg env c p1 p2 (some data)).Fits s _
    cases c <;> dsimp only [Dev.exec]
    case reset => exact h.cmdReset_fits hv data
    case queryMain => exact h.cmdQueryMain_fits
    case queryAll => exact h.cmdQueryAll_fits
    case authorize => exact h.cmdAuthorize_fits hev hv p1 p2 data
    case deauthorize => exact h.cmdDeauthorize_fits hev hv p1
    case queryAuth wc => exact h.cmdQueryAuth_fits hev hv wc p1
    case setup => exact h.cmdSetup_fits hev hv p2 data
    case hmac => exact Dev.cmdHmac_fits hv p2 data
    case bakerSign hh =>
      refine Dev.cmdUpload_fits hv hi ⟨.baking, p1, p2, data⟩ hl fun u q2 first d ref => ?_
      rw [if_pos rfl]
      exact Dev.Sane.bakerSign_fits (s := { s with upl := u }) hev hv
        ⟨⟨h.solid.1, h.solid.2, h.solid.3, h.solid.4⟩, h.2, h.3⟩ hh q2 first d ref
    case sign hh =>
      refine Dev.cmdUpload_fits hv hi ⟨.sign, p1, p2, data⟩ hl fun u q2 first d ref => ?_
      rw [if_neg (by simp)]
      exact Dev.startSign_fits (s := { s with upl := u }) hev hv
        ⟨h.solid.1, h.solid.2, h.solid.3, h.solid.4⟩ hh q2 first d ref
    case legacyVersion => exact Dev.ok_fits _
    case git => exact Dev.ok_fits _
    case version => exact Dev.ok_fits _
    case getKey => exact Dev.cmdGetKey_fits hv p2 data
    case promptAddr => exact h.cmdAddr_fits hev hv true p2 data
    case getAddr =>
      have := h.cmdAddr_fits hev hv (p1 ≥ 1) p2 data
      by_cases h1 : p1 = 0
      · subst h1
        exact this
      · rw [if_neg h1]
        rwa [if_pos (by simpa using le_one_of_ne h1)] at this

end

/-- C87: after any history in which the flash worked, every well-formed request to the running app is answered as the
table in Spec/Answers.lean says. The table knows the app only by its build, the authorized key, the item that was last
signed, and the message being uploaded; all the rest of the history does not matter. Refused requests change neither the
records nor the screen nor the pending review. -/
theorem C87_answers (cfg : Config) (new : NewDevice) (hu : new.upload.length = uploadCapacity) (es : List (Env × Event))
    (hes : ∀ e ∈ es, Kind e.1 e.2 ∧ Good e.1 e.2) (hlen : es.length < 2 ^ 64) (s : Dev)
    (hs : s = ((Dev.factory new).run cfg es).1) (hrun : s.running = true) (env : Env) (hv : Serves env) (ev : Event)
    (ins p1 p2 : UInt8) (data : Bytes) (hc : Carries ev ins p1 p2 data) :
    Fits s (s.step cfg env ev).1 (s.step cfg env ev).2
      (answer cfg.build s.keyName s.lastItem (sessionIn cfg ((Dev.factory new).trace cfg es)) ins p1 p2 data) := by
  subst hs
  exact (Dev.Sane.of_history hu (fun e he => (hes e he).1) hlen).step_fits hrun
    (factory_session hu fun e he => (hes e he).2) hv hc

/-- The status words of refusals. -/
def refusals : List Nat := [0x6400, 0x6700, 0x6984, 0x6985, 0x6986, 0x6B00, 0x9001]

def AmongRefusals : Spec.Answer → Prop
  | .refused w => w ∈ refusals
  | _ => True

theorem withKeyName_among {n : Nat} {c : UInt8} {d : Bytes} {a : Spec.Answer} (h : AmongRefusals a) :
    AmongRefusals (withKeyName n c d a) := by
  unfold withKeyName
  repeat' split
  all_goals first | exact h | simp [AmongRefusals, refusals]

theorem walletAnswer_among (c : UInt8) (p m : Bytes) : AmongRefusals (walletAnswer c p m) := by
  refine withKeyName_among ?_
  repeat' split
  all_goals simp [AmongRefusals, refusals]

theorem bakerAnswer_among (k : Option (UInt8 × Bytes)) (i : Option Item) (c : UInt8) (p m : Bytes) :
    AmongRefusals (bakerAnswer k i c p m) := by
  refine withKeyName_among ?_
  unfold consensusAnswer bakerOperationAnswer
  repeat' split
  all_goals simp [AmongRefusals, refusals]

theorem packetAnswer_among (k : Option (UInt8 × Bytes)) (i : Option Item) (o : Option (Session Accessor))
    (q : Packet Accessor) : AmongRefusals (packetAnswer k i o q) := by
  unfold packetAnswer
  repeat' split
  all_goals first | exact walletAnswer_among _ _ _ | exact bakerAnswer_among _ _ _ _ _ | simp [AmongRefusals, refusals]

theorem answer_among (b : Build) (k : Option (UInt8 × Bytes)) (i : Option Item) (o : Option (Session Accessor))
    (ins p1 p2 : UInt8) (d : Bytes) : AmongRefusals (answer b k i o ins p1 p2 d) := by
  rcases command_cases b ins with ⟨-, h⟩ | ⟨c, -, h⟩ <;> rw [h]
  · simp [AmongRefusals, refusals]
  · cases c <;> dsimp only
    all_goals first
      | exact packetAnswer_among _ _ _ _
      | (refine withKeyName_among ?_; repeat' split) <;> simp [AmongRefusals, refusals]
      | (unfold setupAnswer; repeat' split) <;> simp [AmongRefusals, refusals]
      | (unfold hmacAnswer; repeat' split) <;> simp [AmongRefusals, refusals]
      | skip
    all_goals repeat' split
    all_goals first
      | (simp [AmongRefusals, refusals]; done)
      | (refine withKeyName_among ?_; simp [AmongRefusals])

/-- C87, read from the reply: a request is answered at once with a signature only where the table says so; the app stops
only where the table says so; and a status word other than success is the one of the table, or the table says that the
user is to be asked, and the words are 0x6986 (the review cannot be displayed) or 0x6984 (the operation is malformed). -/
theorem C87_reasons (cfg : Config) (new : NewDevice) (hu : new.upload.length = uploadCapacity)
    (es : List (Env × Event)) (hes : ∀ e ∈ es, Kind e.1 e.2 ∧ Good e.1 e.2) (hlen : es.length < 2 ^ 64) (s : Dev)
    (hs : s = ((Dev.factory new).run cfg es).1) (hrun : s.running = true) (env : Env) (hv : Serves env) (ev : Event)
    (ins p1 p2 : UInt8) (data : Bytes) (hc : Carries ev ins p1 p2 data) (out : Output)
    (hout : out = (s.step cfg env ev).2) (a : Spec.Answer)
    (ha : a = answer cfg.build s.keyName s.lastItem (sessionIn cfg ((Dev.factory new).trace cfg es)) ins p1 p2 data) :
    ((∃ x, out.sig = some x) ↔ ∃ m, a = .signed m) ∧
    ((∃ f, out.fault = some f) ↔ a = .stops) ∧
    (∀ w, out.reply = some (beEnc 2 w) → w < 2 ^ 16 → w ≠ 0x9000 →
      a = .refused w ∨ a = .asked ∧ w = 0x6986 ∨ (∃ p, a = .askedIf p ∧ (p ∧ w = 0x6986 ∨ ¬ p ∧ w = 0x6984)) ∨
        a = .declined ∧ (w = 0x6984 ∨ w = 0x6986)) := by
  have h := C87_answers cfg new hu es hes hlen s hs hrun env hv ev ins p1 p2 data hc
  rw [← hout, ← ha] at h
  have hinj : ∀ {v w : Nat}, v < 2 ^ 16 → w < 2 ^ 16 → beEnc 2 v = beEnc 2 w → v = w := by
    intro v w h1 h2 e
    have := congrArg beDec e
    rwa [beDec_beEnc, beDec_beEnc, Nat.mod_eq_of_lt (by simpa using h1), Nat.mod_eq_of_lt (by simpa using h2)] at this
  have hword : ∀ w, answer cfg.build s.keyName s.lastItem (sessionIn cfg ((Dev.factory new).trace cfg es)) ins p1 p2
      data = .refused w → w < 2 ^ 16 := by
    intro w e
    have := answer_among cfg.build s.keyName s.lastItem (sessionIn cfg ((Dev.factory new).trace cfg es)) ins p1 p2 data
    rw [e] at this
    exact (by decide : ∀ w ∈ refusals, w < 2 ^ 16) w this
  have hserved : ∀ {w : Nat} {d : Bytes}, w < 2 ^ 16 → w ≠ 0x9000 → d ++ [0x90, 0x00] ≠ beEnc 2 w := by
    intro w d h1 h2 e
    have hl := congrArg List.length e
    simp at hl
    subst hl
    exact h2 (hinj h1 (by decide) (e.symm.trans (by decide)))
  have hasks : ∀ {w : Nat} {s s' : Dev}, AsksUser s s' out → out.reply = some (beEnc 2 w) → w < 2 ^ 16 → w = 0x6986 := by
    intro w s s' h hr hw
    rcases h.out with ⟨e, -⟩ | ⟨e, -⟩
    · rw [e] at hr; cases hr
    · rw [e] at hr
      exact hinj hw (by decide) ((Option.some.inj hr).symm.trans (by decide))
  cases a with
  | refused w =>
    refine ⟨?_, ?_, fun v hv' hv2 _ => .inl ?_⟩
    · simp [h.out]
    · simp [h.out]
    · rw [h.out] at hv'
      rw [hinj (hword w ha.symm) hv2 (Option.some.inj hv')]
  | served =>
    obtain ⟨d, h⟩ := h
    refine ⟨?_, ?_, fun v hv' hv2 hv3 => ?_⟩
    · simp [h]
    · simp [h]
    · rw [h] at hv'
      exact absurd (Option.some.inj hv') (hserved hv2 hv3)
  | signed m =>
    obtain ⟨d, x, h, -⟩ := h
    refine ⟨?_, ?_, fun v hv' hv2 hv3 => ?_⟩
    · simp [h]
    · simp [h]
    · rw [h] at hv'
      exact absurd (Option.some.inj hv') (hserved hv2 hv3)
  | asked =>
    refine ⟨?_, ?_, fun v hv' hv2 hv3 => .inr (.inl ⟨rfl, hasks h hv' hv2⟩)⟩
    · rcases h.out with ⟨e, -⟩ | ⟨e, -⟩ <;> simp [e, Output.quiet]
    · rcases h.out with ⟨e, -⟩ | ⟨e, -⟩ <;> simp [e, Output.quiet]
  | askedIf p =>
    refine ⟨?_, ?_, fun v hv' hv2 hv3 => .inr (.inr (.inl ⟨p, rfl, ?_⟩))⟩
    · rcases h with ⟨-, h⟩ | ⟨-, h⟩
      · rcases h.out with ⟨e, -⟩ | ⟨e, -⟩ <;> simp [e, Output.quiet]
      · simp [h.out]
    · rcases h with ⟨-, h⟩ | ⟨-, h⟩
      · rcases h.out with ⟨e, -⟩ | ⟨e, -⟩ <;> simp [e, Output.quiet]
      · simp [h.out]
    · rcases h with ⟨hp, h⟩ | ⟨hp, h⟩
      · exact .inl ⟨hp, hasks h hv' hv2⟩
      · rw [h.out] at hv'
        exact .inr ⟨hp, (hinj (by decide) hv2 (Option.some.inj hv')).symm⟩
  | declined =>
    refine ⟨?_, ?_, fun v hv' hv2 hv3 => .inr (.inr (.inr ⟨rfl, ?_⟩))⟩
    · rcases h with h | h <;> simp [h.out]
    · rcases h with h | h <;> simp [h.out]
    · rcases h with h | h <;> rw [h.out] at hv'
      · exact .inl (hinj (by decide) hv2 (Option.some.inj hv')).symm
      · exact .inr (hinj (by decide) hv2 (Option.some.inj hv')).symm
  | stops =>
    have h : out = ⟨none, none, some .panic⟩ := h
    refine ⟨by simp [h], by simp [h], fun v hv' => ?_⟩
    rw [h] at hv'
    cases hv'

namespace Demo

theorem fine_serves : Serves fine :=
  ⟨crypto_works, fun _ => rfl, fun _ => rfl, fun _ _ => rfl, fun _ _ => rfl, fun _ _ _ => rfl, rfl, rfl, rfl, rfl, rfl, rfl⟩

/-- A setup at level 5, and the opening of an upload. -/
def opened : List (Env × Event) := setup 5 ++ ok [apdu 0x04 0 0 keyPath]

theorem opened_good : ∀ e ∈ opened, Kind e.1 e.2 ∧ Good e.1 e.2 := by
  have hfull : ∀ e ∈ opened, e.2.Full := by decide +kernel
  have hfine : ∀ e ∈ opened, e.1 = fine := by simp [opened, setup, ok]
  intro e he
  rw [hfine e he]
  exact ⟨fine_kind _ (hfull e he), rfl, rfl, hfull e he⟩

/-- What the table says then. -/
def openedAnswer (ins p1 p2 : UInt8) (data : Bytes) : Spec.Answer :=
  let s := ((Dev.factory newSmall).run bakingApp opened).1
  answer .baking s.keyName s.lastItem (sessionIn bakingApp ((Dev.factory newSmall).trace bakingApp opened)) ins p1 p2 data

def wordOf : Spec.Answer → Option Nat
  | .refused w => some w
  | _ => none

def signedBy : Spec.Answer → Option Bytes
  | .signed m => some m
  | _ => none

def shape : Spec.Answer → Nat
  | .refused _ => 0
  | .served => 1
  | .signed _ => 2
  | .asked => 3
  | .askedIf _ => 4
  | .declined => 5
  | .stops => 6

set_option maxRecDepth 100000 in
/-- `C87_answers` on the packet that completes the upload of a block of level 8, which is signed. -/
example : ∃ d x, ((((Dev.factory newSmall).run bakingApp opened).1.step bakingApp fine
    (apdu 0x04 0x81 0 (emmyBlock 8))).2) = ⟨some (d ++ [0x90, 0x00]), some x, none⟩ ∧ x.msg = emmyBlock 8 := by
  have h := C87_answers bakingApp newSmall (by decide +kernel) opened opened_good (by decide) _ rfl (by decide +kernel) fine
    fine_serves _ 0x04 0x81 0 (emmyBlock 8) (apdu_carries _ _ _ _ (by decide))
  have ha : signedBy (openedAnswer 0x04 0x81 0 (emmyBlock 8)) = some (emmyBlock 8) := by decide +kernel
  have hs : ∀ {a : Spec.Answer} {m : Bytes}, signedBy a = some m → a = .signed m := by
    intro a m h
    cases a <;> simp_all [signedBy]
  change Fits _ _ _ (openedAnswer 0x04 0x81 0 (emmyBlock 8)) at h
  rw [hs ha] at h
  exact h

set_option maxRecDepth 100000 in
/-- The table in the same situation: the level of the setup again; another kind of upload; a path too long; an unknown
instruction; no path; a block whose fitness is too short, which stops the app. -/
example :
    wordOf (openedAnswer 0x04 0x81 0 (emmyBlock 5)) = some 0x6984 ∧
    wordOf (openedAnswer 0x12 0x02 0 []) = some 0x9001 ∧
    wordOf (openedAnswer 0x04 0x05 0 []) = some 0x6B00 ∧
    wordOf (openedAnswer 0x02 0 0 (7 :: List.replicate 28 0)) = some 0x6984 ∧
    wordOf (openedAnswer 0xFF 0 0 []) = some 0x6986 ∧
    wordOf (openedAnswer 0x0A 0 0 [1, 2, 3]) = some 0x6700 ∧
    shape (openedAnswer 0x03 0 0 keyPath) = 3 ∧ shape (openedAnswer 0xAD 0 0 []) = 1 ∧
    shape (openedAnswer 0x04 0x81 0 (delegation 0)) = 4 ∧
    shape (openedAnswer 0x04 0x81 0 ([0x11] ++ List.replicate 82 0 ++ [0, 0, 0, 5, 0, 0, 0, 1, 2])) = 6 := by
  decide +kernel

end Demo

end Tezos
