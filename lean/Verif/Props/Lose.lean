import Verif.Props.Answers
/-
C94: a system call that fails costs the request in progress and nothing else.
-/
set_option linter.unusedSimpArgs false
set_option linter.unusedVariables false
namespace Spec

/-- `a` is what `b` is, unless it failed. -/
def Misses {α : Type} (a b : Option α) : Prop := a = b ∨ a = none

end Spec
namespace Tezos
open Spec

/-- The system calls of `cr` return what those of `cr'` return, except that some of them may fail. -/
structure Crypto.Misses (cr cr' : Crypto) : Prop where
  sha256 : ∀ m, Spec.Misses (cr.sha256 m) (cr'.sha256 m)
  sha512 : ∀ m, Spec.Misses (cr.sha512 m) (cr'.sha512 m)
  blake2b : ∀ n m, Spec.Misses (cr.blake2b n m) (cr'.blake2b n m)
  hmac : ∀ k m, Spec.Misses (cr.hmac k m) (cr'.hmac k m)
  publicKey : ∀ c p, Spec.Misses (cr.publicKey c p) (cr'.publicKey c p)
  sign : ∀ c p d, Spec.Misses (cr.sign c p d) (cr'.sign c p d)

/-- The event went wrong for lack of a result of the system, where it would have ended as `r'`. The host is told 0x6400
or 0x6984, or the error screen comes up in place of the review, which is pending and to be answered. No signature is
handed out, the app goes on, and of the records only the high watermark of the main chain may have been written, as it
would have been. The upload is where it would have been. If a reply was sent, the review that was pending and the screen
are untouched, or it was this review that the user approved, and none is pending. -/
structure Lost (s : Dev) (r r' : Dev × Output) : Prop where
  reply : r.2.reply = some [0x64, 0x00] ∨ r.2.reply = some [0x69, 0x84] ∨
    r.2.reply = none ∧ r.1.zui.screen = .error ∧ r.1.view.isSome
  sig : r.2.sig = none
  fault : r.2.fault = none
  running : r.1.running = true
  main : r.1.main = s.main ∨ r.1.main = r'.1.main
  test : r.1.test = s.test
  chain : r.1.chain = s.chain
  key : r.1.key = s.key
  upl : r.1.upl = r'.1.upl
  pending : r.2.reply.isSome → (r.1.zui = s.zui ∧ r.1.view = s.view) ∨ (s.view.isSome ∧ r.1.view = none)

/-! ### Texts -/

theorem misses_refl {α : Type} (a : Option α) : Misses a a := .inl rfl

theorem misses_bind {α β : Type} {a b : Option α} {f g : α → Option β} (h : Misses a b)
    (hf : ∀ x, Misses (f x) (g x)) : Misses (a >>= f) (b >>= g) := by
  rcases h with rfl | rfl
  · cases a with
    | none => exact .inl rfl
    | some x => exact hf x
  · exact .inr rfl

/-- The same of texts, where the failure of a system call is the error `unknown`. -/
def Loses {α : Type} (a b : Except VErr α) : Prop := a = b ∨ a = .error .unknown

theorem loses_refl {α : Type} (a : Except VErr α) : Loses a a := .inl rfl

theorem loses_bind {α β : Type} {a b : Except VErr α} {f g : α → Except VErr β} (h : Loses a b)
    (hf : ∀ x, Loses (f x) (g x)) : Loses (a >>= f) (b >>= g) := by
  rcases h with rfl | rfl
  · cases a with
    | error e => exact .inl rfl
    | ok x => exact hf x
  · exact .inr rfl

theorem loses_then {α β : Type} {a b : Except VErr α} {f : α → Except VErr β} (h : Loses a b) :
    Loses (a >>= f) (b >>= f) := loses_bind h fun _ => loses_refl _

theorem loses_orUnknown {α : Type} {a b : Option α} (h : Misses a b) : Loses (orUnknown a) (orUnknown b) := by
  rcases h with rfl | rfl
  · exact .inl rfl
  · exact .inr rfl

section
variable {cr cr' : Crypto} (h : cr.Misses cr')
include h

theorem sha256x2_misses (l : List Bytes) : Misses (sha256x2 cr l) (sha256x2 cr' l) :=
  misses_bind (h.sha256 _) fun _ => misses_bind (h.sha256 _) fun _ => misses_refl _

theorem checked_misses (a b : Bytes) : Misses (checked cr a b) (checked cr' a b) :=
  misses_bind (sha256x2_misses h _) fun _ => misses_refl _

theorem keyHash_misses (c : Curve) (k : Bytes) : Misses (keyHash cr c k) (keyHash cr' c k) := by
  cases c <;> exact h.blake2b _ _

theorem fromHash_misses (x : Bytes) (c : Curve) : Misses (Addr.fromHash cr x c) (Addr.fromHash cr' x c) :=
  misses_bind (checked_misses h _ _) fun _ => misses_refl _

theorem ofKey_misses (c : Curve) (k : Bytes) : Misses (Addr.ofKey cr c k) (Addr.ofKey cr' c k) :=
  misses_bind (keyHash_misses h c k) fun _ => fromHash_misses h _ _

theorem newAddr_misses (c : Curve) (p : Path) : Misses (newAddr cr c p) (newAddr cr' c p) :=
  misses_bind (h.publicKey _ _) fun _ => ofKey_misses h _ _

theorem pkhText_loses (p : Pkh) : Loses (pkhText cr p) (pkhText cr' p) :=
  loses_then (loses_orUnknown (fromHash_misses h _ _))

theorem contractText_loses (c : ContractID) : Loses (c.text cr) (c.text cr') := by
  cases c <;> exact loses_then (loses_orUnknown (checked_misses h _ _))

theorem michelsonText_loses (m : Bytes) : Loses (michelsonText cr m) (michelsonText cr' m) :=
  loses_then (loses_orUnknown (h.sha256 _))

theorem keyText_loses (c : Curve) (k : Bytes) : Loses (keyText cr c k) (keyText cr' c k) :=
  loses_then (loses_orUnknown (checked_misses h _ _))

theorem branchText_loses (b : Bytes) : Loses (branchText cr b) (branchText cr' b) :=
  loses_then (loses_orUnknown (checked_misses h _ _))

theorem proposalText_loses (b : Bytes) : Loses (proposalText cr b) (proposalText cr' b) :=
  loses_then (loses_orUnknown (checked_misses h _ _))

theorem chainIdText_loses (i : UInt32) : Loses (chainIdText cr i) (chainIdText cr' i) :=
  loses_then (loses_orUnknown (checked_misses h _ _))

theorem unknownText_loses (d : Bytes) : Loses (unknownText cr d) (unknownText cr' d) :=
  loses_bind (loses_orUnknown (h.blake2b _ _)) fun _ => loses_then (loses_orUnknown (sha256x2_misses h _))

theorem alias_loses (c : ChainID) : Loses (c.alias cr) (c.alias cr') := by
  cases c with
  | custom i => exact chainIdText_loses h i
  | _ => exact loses_refl _

theorem transferItem_loses (t : Transfer) : ∀ n, Loses (t.item cr n) (t.item cr' n)
  | 1 => loses_then (pkhText_loses h _)
  | 2 => loses_then (contractText_loses h _)
  | 5 => by
    simp only [Transfer.item]
    cases t.parameters with
    | none => exact loses_refl _
    | some p => exact loses_then (michelsonText_loses h _)
  | 0 | 3 | 4 | 6 | 7 | 8 => loses_refl _
  | _ + 9 => loses_refl _

theorem delegationItem_loses (d : Delegation) : ∀ n, Loses (d.item cr n) (d.item cr' n)
  | 1 => loses_then (pkhText_loses h _)
  | 2 => by
    simp only [Delegation.item]
    cases d.delegate with
    | none => exact loses_refl _
    | some p =>
      dsimp only
      split
      · exact loses_refl _
      · exact loses_then (pkhText_loses h _)
  | 0 | 3 | 4 | 5 | 6 => loses_refl _
  | _ + 7 => loses_refl _

theorem originationItem_loses (o : Origination) : ∀ n, Loses (o.item cr n) (o.item cr' n)
  | 1 => loses_then (pkhText_loses h _)
  | 3 => by
    simp only [Origination.item]
    cases o.delegate with
    | none => exact loses_refl _
    | some p => exact loses_then (pkhText_loses h _)
  | 5 | 6 => loses_then (michelsonText_loses h _)
  | 0 | 2 | 4 | 7 | 8 | 9 => loses_refl _
  | _ + 10 => loses_refl _

theorem revealItem_loses (r : Reveal) : ∀ n, Loses (r.item cr n) (r.item cr' n)
  | 1 => loses_then (pkhText_loses h _)
  | 2 => loses_then (keyText_loses h _ _)
  | 0 | 3 | 4 | 5 | 6 => loses_refl _
  | _ + 7 => loses_refl _

theorem slotItem_loses (e : EndorsementWithSlot) : ∀ n, Loses (e.item cr n) (e.item cr' n)
  | 1 => loses_then (branchText_loses h _)
  | 0 | 2 => loses_refl _
  | _ + 3 => loses_refl _

theorem proposalsItem_loses (p : Proposals) : ∀ n, Loses (p.item cr n) (p.item cr' n)
  | 1 => loses_then (pkhText_loses h _)
  | 0 | 2 => loses_refl _
  | k + 3 => by
    simp only [Proposals.item]
    split
    · split
      · exact loses_refl _
      · exact loses_then (proposalText_loses h _)
    · exact loses_refl _

theorem ballotItem_loses (b : Ballot) : ∀ n, Loses (b.item cr n) (b.item cr' n)
  | 1 => loses_then (pkhText_loses h _)
  | 3 => loses_then (proposalText_loses h _)
  | 0 | 2 | 4 => loses_refl _
  | _ + 5 => loses_refl _

theorem activateItem_loses (a : ActivateAccount) : ∀ n, Loses (a.item cr n) (a.item cr' n)
  | 1 => loses_then (pkhText_loses h _)
  | 0 | 2 => loses_refl _
  | _ + 3 => loses_refl _

theorem failingNoopItem_loses (d : Bytes) : ∀ n, Loses (failingNoopItem cr d n) (failingNoopItem cr' d n)
  | 1 => loses_then (michelsonText_loses h _)
  | 0 => loses_refl _
  | _ + 2 => loses_refl _

theorem unknownItem_loses (d : Bytes) : ∀ n, Loses (unknownItem cr d n) (unknownItem cr' d n)
  | 1 => loses_then (unknownText_loses h _)
  | 0 => loses_refl _
  | _ + 2 => loses_refl _

theorem opItem_loses (op : Op) (n : Nat) : Loses (op.item cr n) (op.item cr' n) := by
  cases op with
  | transfer t => exact transferItem_loses h t n
  | delegation d => exact delegationItem_loses h d n
  | endorsement l => exact loses_refl _
  | endorsementWithSlot e => exact slotItem_loses h e n
  | ballot b => exact ballotItem_loses h b n
  | reveal r => exact revealItem_loses h r n
  | proposals p => exact proposalsItem_loses h p n
  | origination o => exact originationItem_loses h o n
  | activateAccount a => exact activateItem_loses h a n
  | failingNoop d => exact failingNoopItem_loses h d n
  | unknown d => exact unknownItem_loses h d n
  | anonymous => exact loses_refl _

theorem signOpItem_loses (branch ops : Bytes) (n : UInt8) :
    Loses (signOpItem cr branch ops n) (signOpItem cr' branch ops n) := by
  unfold signOpItem
  split
  · exact loses_then (branchText_loses h _)
  · refine loses_bind (loses_refl _) fun x => ?_
    cases x with
    | none => exact loses_refl _
    | some q => exact opItem_loses h _ _

/-- A review that is the same but for failures. -/
structure VLoses (v v' : Viewer) : Prop where
  count : v.numItems = v'.numItems
  item : ∀ n, Loses (v.item n) (v'.item n)

theorem viewer_loses (mem : SwapBuf) (v : View) : VLoses (v.viewer cr mem) (v.viewer cr' mem) := by
  cases v with
  | sign a b r m =>
    cases r with
    | none => exact ⟨rfl, fun _ => loses_refl _⟩
    | some r => exact ⟨rfl, fun n => signOpItem_loses h _ _ n⟩
  | bakingSign a b r op m =>
    refine ⟨rfl, fun n => ?_⟩
    simp only [View.viewer]
    split
    · exact loses_then (branchText_loses h _)
    · exact opItem_loses h _ _
  | setup a b c d e =>
    refine ⟨rfl, fun n => ?_⟩
    simp only [View.viewer]
    repeat' split
    all_goals first | exact loses_refl _ | exact loses_then (alias_loses h _)
  | _ => exact ⟨rfl, fun _ => loses_refl _⟩

end

/-! ### Screens -/

/-- An update that is the same or failed. -/
def UFails (u u' : Upd) : Prop := u = u' ∨ ∃ z, u = .failed z

section
variable {v v' : Viewer} (h : VLoses v v')
include h

theorem renderItem_loses (i p : Nat) : Loses (renderItem v i p) (renderItem v' i p) := loses_then (h.item _)

theorem renderItemX_loses (i p : Nat) : Loses (renderItemX v i p) (renderItemX v' i p) := loses_then (h.item _)

theorem updateLoop_fails : ∀ (n : Nat) (z : Zui), UFails (updateLoop v n z) (updateLoop v' n z)
  | 0, z => .inl rfl
  | n + 1, z => by
    unfold updateLoop
    rcases renderItem_loses h z.itemIdx 0 with e | e
    · rw [e]
      split
      · exact .inl rfl
      · exact .inl rfl
      · exact .inl rfl
      · dsimp only
        rename_i n1 _
        obtain ⟨z1, hz⟩ : ∃ z1 : Zui, z1 = (if n1 ≠ 0 ∧ z.pageIdx > n1 then { z with pageCount := n1, pageIdx := n1 - 1 }
          else { z with pageCount := n1 }) := ⟨_, rfl⟩
        rw [← hz]
        rcases renderItem_loses h z1.itemIdx z1.pageIdx with e | e
        · rw [e]
          split
          · exact .inl rfl
          · exact .inl rfl
          · exact .inl rfl
          · split
            · exact updateLoop_fails n _
            · exact .inl rfl
        · rw [e]
          exact .inr ⟨_, rfl⟩
    · rw [e]
      exact .inr ⟨_, rfl⟩

theorem reviewUpdate_fails (z : Zui) : UFails (reviewUpdate (some v) z) (reviewUpdate (some v') z) := by
  unfold reviewUpdate
  dsimp only
  rw [h.count]
  split
  · exact .inl rfl
  · exact .inl rfl
  · split
    · exact .inl rfl
    · split
      · exact .inl rfl
      · exact updateLoop_fails h _ _

/-- The same of the larger display. -/
def XFails (u u' : UpdX) : Prop := u = u' ∨ ∃ z, u = .failed z

theorem updateLoopX_fails : ∀ (n : Nat) (z : ZuiX), XFails (updateLoopX v n z) (updateLoopX v' n z)
  | 0, z => .inl rfl
  | n + 1, z => by
    unfold updateLoopX
    rcases renderItemX_loses h z.itemIdx 0 with e | e
    · rw [e]
      split
      · exact .inl rfl
      · dsimp only
        rename_i n1 _
        obtain ⟨z1, hz⟩ : ∃ z1 : ZuiX, z1 = (if n1 ≠ 0 ∧ z.pageIdx > n1 then { z with pageCount := n1, pageIdx := n1 - 1 }
          else { z with pageCount := n1 }) := ⟨_, rfl⟩
        rw [← hz]
        rcases renderItemX_loses h z1.itemIdx z1.pageIdx with e | e
        · rw [e]
          split
          · exact .inl rfl
          · split
            · exact updateLoopX_fails n _
            · exact .inl rfl
        · rw [e]
          exact .inr ⟨_, rfl⟩
    · rw [e]
      exact .inr ⟨_, rfl⟩

theorem reviewUpdateX_fails (z : ZuiX) : XFails (reviewUpdateX (some v) z) (reviewUpdateX (some v') z) := by
  unfold reviewUpdateX
  dsimp only
  rw [h.count]
  split
  · exact .inl rfl
  · exact updateLoopX_fails h _ _

theorem loopStart_fails (z : ZuiX) :
    z.loopStart (some v) = z.loopStart (some v') ∨ ∃ x, z.loopStart (some v) = .error x := by
  unfold ZuiX.loopStart
  split
  · split
    · rcases reviewUpdateX_fails h z.pagingDecrease with e | ⟨x, e⟩
      · exact .inl (by rw [e])
      · exact .inr ⟨x, by rw [e]; rfl⟩
    · exact .inl rfl
  · rcases reviewUpdateX_fails h z.pagingInit with e | ⟨x, e⟩
    · exact .inl (by rw [e])
    · exact .inr ⟨x, by rw [e]; rfl⟩

theorem loopEnd_fails (z : ZuiX) :
    z.loopEnd (some v) = z.loopEnd (some v') ∨ ∃ x, z.loopEnd (some v) = .lost x := by
  unfold ZuiX.loopEnd
  split
  · rcases reviewUpdateX_fails h z.pagingIncrease with e | ⟨x, e⟩
    · exact .inl (by rw [e])
    · exact .inr ⟨x, by rw [e]⟩
  · rcases reviewUpdateX_fails h z.pagingDecrease with e | ⟨x, e⟩
    · exact .inl (by rw [e])
    · exact .inr ⟨x, by rw [e]; rfl⟩

theorem openReview_fails (z : Zui) : UFails (z.openReview v) (z.openReview v') := by
  unfold Zui.openReview
  split
  · exact reviewUpdate_fails h _
  · exact .inl rfl

theorem leftX_fails (z : ZuiX) :
    z.left (some v) = z.left (some v') ∨ (∃ x, z.left (some v) = .error x) ∨ ∃ x, z.left (some v) = .lost x := by
  unfold ZuiX.left
  cases z.step with
  | item => exact (loopStart_fails h z).imp id .inl
  | approve => exact (loopEnd_fails h z).imp id .inr
  | _ => exact .inl rfl

theorem rightX_fails (z : ZuiX) :
    z.right (some v) = z.right (some v') ∨ (∃ x, z.right (some v) = .error x) ∨ ∃ x, z.right (some v) = .lost x := by
  unfold ZuiX.right
  cases z.step with
  | title => exact (loopStart_fails h z).imp id .inl
  | item => exact (loopEnd_fails h z).imp id .inr
  | _ => exact .inl rfl

theorem goLeft_fails (z : Zui) : UFails (z.goLeft (some v)) (z.goLeft (some v')) := by
  unfold Zui.goLeft
  cases z.large with
  | none => exact reviewUpdate_fails h _
  | some l =>
    rcases leftX_fails h l.x with e | ⟨x, e⟩ | ⟨x, e⟩
    · exact .inl (by simp only [e])
    · exact .inr ⟨_, by simp only [e]; rfl⟩
    · exact .inr ⟨_, by simp only [e]; rfl⟩

theorem goRight_fails (z : Zui) : UFails (z.goRight (some v)) (z.goRight (some v')) := by
  unfold Zui.goRight
  cases z.large with
  | none => exact reviewUpdate_fails h _
  | some l =>
    rcases rightX_fails h l.x with e | ⟨x, e⟩ | ⟨x, e⟩
    · exact .inl (by simp only [e])
    · exact .inr ⟨_, by simp only [e]; rfl⟩
    · exact .inr ⟨_, by simp only [e]; rfl⟩

end

/-! ### Commands -/

/-- Two environments that differ only in that the first lets system calls fail. -/
structure Env.Misses (env env' : Env) : Prop where
  cr : env.cr.Misses env'.cr
  main : env.mainF = env'.mainF
  test : env.testF = env'.testF
  chain : env.chainF = env'.chainF
  key : env.keyF = env'.keyF
  copy : env.copyF = env'.copyF
  append : env.appendF = env'.appendF

/-- `Lost`, of a handler started in `s`. -/
structure Res.Lost (s : Dev) (r r' : Res) : Prop where
  out : r.out = .err .executionError ∨ r.out = .err .dataInvalid ∨
    r.out = .shown none ∧ r.st.zui.screen = .error ∧ r.st.view.isSome
  running : r.st.running = s.running
  main : r.st.main = s.main ∨ r.st.main = r'.st.main
  test : r.st.test = s.test
  chain : r.st.chain = s.chain
  key : r.st.key = s.key
  pending : r.out ≠ .shown none → r.st.zui = s.zui ∧ r.st.view = s.view

/-- The same result, or lost. -/
def Res.Falls (s : Dev) (r r' : Res) : Prop := r = r' ∨ Res.Lost s r r'

theorem falls_refl {s : Dev} (r : Res) : Res.Falls s r r := .inl rfl

theorem Res.fail_falls {s : Dev} {e : ApduError} {r' : Res} (he : e = .executionError ∨ e = .dataInvalid) :
    Res.Falls s (s.fail e) r' := by
  refine .inr ⟨?_, rfl, .inl rfl, rfl, rfl, rfl, fun _ => ⟨rfl, rfl⟩⟩
  rcases he with rfl | rfl
  · exact .inl rfl
  · exact .inr (.inl rfl)

theorem Dev.withRead_falls {s : Dev} {r : ReadRes} {e : ApduError} {k k' : Bytes → Res}
    (h : ∀ b, Res.Falls s (k b) (k' b)) : Res.Falls s (s.withRead r e k) (s.withRead r e k') := by
  cases r with
  | ok b => exact h b
  | _ => exact .inl rfl

theorem Dev.withKey_falls {s : Dev} {e e' : ApduError} {k k' : PathAndCurve → Res}
    (h : ∀ b, Res.Falls s (k b) (k' b)) : Res.Falls s (s.withKey e e' k) (s.withKey e e' k') := by
  refine Dev.withRead_falls fun b => ?_
  split
  · exact .inl rfl
  · exact .inl rfl
  · exact h _

theorem Dev.withPath_falls {s : Dev} {n : Nat} {p2 : UInt8} {p : Option Bytes} {k k' : PathAndCurve → Res}
    (h : ∀ b, Res.Falls s (k b) (k' b)) : Res.Falls s (s.withPath n p2 p k) (s.withPath n p2 p k') := by
  unfold Dev.withPath
  repeat' split
  all_goals first | exact .inl rfl | exact h _

section
variable {env env' : Env} (h : env.Misses env') {s : Dev}
include h

theorem Dev.show_falls (v : View) : Res.Falls s (s.show env v) (s.show env' v) := by
  unfold Dev.show
  dsimp only
  rcases openReview_fails (viewer_loses h.cr s.upl.buf v) s.zui with e | ⟨z, e⟩
  · exact .inl (by rw [e])
  · rw [e]
    exact .inr ⟨.inr (.inr ⟨rfl, rfl, rfl⟩), rfl, .inl rfl, rfl, rfl, rfl, fun e => absurd rfl e⟩

theorem Dev.bakingSign_misses (b : Bool) (d m : Bytes) :
    s.bakingSign env b d m = s.bakingSign env' b d m ∨ s.bakingSign env b d m = s.fail .executionError := by
  unfold Dev.bakingSign Dev.withKey Dev.withRead
  split
  · dsimp only
    split
    · exact .inl rfl
    · exact .inl rfl
    · rename_i k _
      rcases h.cr.sign k.curve k.path d with e | e
      · exact .inl (by rw [e])
      · exact .inr (by rw [e])
  · exact .inl rfl
  · exact .inl rfl

theorem Dev.writes :
    (∀ (w : WaterMark) (s : Dev), s.writeMain env w = s.writeMain env' w) ∧
    (∀ (w : WaterMark) (s : Dev), s.writeTest env w = s.writeTest env' w) ∧
    (∀ (w : UInt32) (s : Dev), s.writeChain env w = s.writeChain env' w) ∧
    (∀ (k : PathAndCurve) (s : Dev), s.storeKey env k = s.storeKey env' k) ∧
    ∀ s : Dev, s.removeKey env = s.removeKey env' := by
  refine ⟨fun _ _ => ?_, fun _ _ => ?_, fun _ _ => ?_, fun _ _ => ?_, fun _ => ?_⟩
  · rw [Dev.writeMain, Dev.writeMain, h.main]
  · rw [Dev.writeTest, Dev.writeTest, h.test]
  · rw [Dev.writeChain, Dev.writeChain, h.chain]
  · rw [Dev.storeKey, Dev.storeKey, h.key]
  · rw [Dev.removeKey, Dev.removeKey, h.key]

theorem Dev.autoSign_falls (b : Bool) (d m : Bytes) (f : WaterMark → Except HErr WaterMark) :
    Res.Falls s (s.autoSign env b d m f) (s.autoSign env' b d m f) := by
  refine Dev.withRead_falls fun x => ?_
  split
  · exact .inl rfl
  · exact .inl rfl
  · dsimp only
    rw [(Dev.writes h).1]
    rename_i w hw
    cases hr : (s.writeMain env' w).2 with
    | ok =>
      rcases Dev.bakingSign_misses h (s := (s.writeMain env' w).1) b d m with e | e
      · exact .inl e
      · right
        have hm : (Dev.bakingSign env' b d m (s.writeMain env' w).1).st.main = (s.writeMain env' w).1.main := by
          rcases Dev.bakingSign_cases env' b d m (s.writeMain env' w).1 with hb | ⟨_, _, _, _, hb⟩
          · rw [hb.1]
          · rw [hb]
        show Res.Lost s (Dev.bakingSign env b d m _) (Dev.bakingSign env' b d m _)
        rw [e]
        exact ⟨.inl rfl, rfl, .inr hm.symm, rfl, rfl, rfl, fun _ => ⟨rfl, rfl⟩⟩
    | _ => exact .inl rfl

theorem Dev.handleDelegation_falls (b : Bool) (d rem m : Bytes) (r : MemRef) :
    Res.Falls s (s.handleDelegation env b d rem m r) (s.handleDelegation env' b d rem m r) := by
  unfold Dev.handleDelegation
  split
  · exact .inl rfl
  · exact .inl rfl
  · split <;> first | exact .inl rfl | exact Dev.show_falls h _

theorem Dev.bakerSign_falls (b : Bool) (p2 : UInt8) (first data : Bytes) (ref : MemRef) :
    Res.Falls s (s.bakerSign env b p2 first data ref) (s.bakerSign env' b p2 first data ref) := by
  refine Dev.withPath_falls fun k => Dev.withKey_falls fun k' => ?_
  split
  · exact .inl rfl
  · rcases h.cr.blake2b 32 data with e | e
    · rw [e]
      split
      · exact .inl rfl
      · split
        · exact .inl rfl
        · exact .inl rfl
        · split
          · exact Dev.autoSign_falls h _ _ _ _
          · exact Dev.autoSign_falls h _ _ _ _
          · exact Dev.autoSign_falls h _ _ _ _
          · exact Dev.autoSign_falls h _ _ _ _
          · exact Dev.autoSign_falls h _ _ _ _
          · exact Dev.handleDelegation_falls h _ _ _ _ _
          · exact .inl rfl
    · rw [e]
      exact Res.fail_falls (.inl rfl)

omit h in
/-- Results compared with a state that has only another path. -/
theorem Res.Falls.path {s : Dev} {p : Option (Path × Curve)} {r r' : Res}
    (h : Res.Falls { s with path := p } r r') : Res.Falls s r r' := by
  rcases h with h | h
  · exact .inl h
  · exact .inr ⟨h.out, h.running, h.main, h.test, h.chain, h.key, h.pending⟩

theorem Dev.startSign_falls (b : Bool) (p2 : UInt8) (first data : Bytes) (ref : MemRef) :
    Res.Falls s (s.startSign env b p2 first data ref) (s.startSign env' b p2 first data ref) := by
  refine Dev.withPath_falls fun k => ?_
  dsimp only
  refine Res.Falls.path (p := some (k.path, k.curve)) ?_
  rcases h.cr.blake2b 32 data with e | e
  · rw [e]
    split
    · exact .inl rfl
    · split
      · exact .inl rfl
      · exact .inl rfl
      · split
        · exact .inl rfl
        · exact .inl rfl
        · exact Dev.show_falls h _
      · exact Dev.show_falls h _
      · exact .inl rfl
  · rw [e]
    exact Res.fail_falls (.inl rfl)

theorem Dev.cmdUpload_falls (acc : Accessor) (p1 p2 : UInt8) (p : Option Bytes)
    {f f' : UInt8 → Bytes → Bytes → MemRef → Dev → Res}
    (hf : ∀ p2 a b c s, Res.Falls s (f p2 a b c s) (f' p2 a b c s)) :
    Res.Falls s (s.cmdUpload env acc p1 p2 p f) (s.cmdUpload env' acc p1 p2 p f') := by
  unfold Dev.cmdUpload
  rw [h.copy, h.append]
  dsimp only
  split
  · exact .inl rfl
  · exact .inl rfl
  · exact .inl rfl
  · exact .inl rfl
  · rename_i a b c d e
    rcases hf a b c d { s with upl := (s.upl.upload env'.copyF env'.appendF acc p1 p2 p).1 } with e | e
    · exact .inl (by rw [e])
    · exact .inr ⟨e.out, e.running, e.main, e.test, e.chain, e.key, e.pending⟩

theorem View.accept_misses (v : View) :
    v.accept env s = v.accept env' s ∨ v.accept env s = s.fail .executionError := by
  obtain ⟨h1, h2, h3, h4, h5⟩ := Dev.writes h
  cases v with
  | sign a d r m =>
    simp only [View.accept]
    split
    · exact .inl rfl
    · rename_i p c hp
      rcases h.cr.sign c p d with e | e
      · exact .inl (by rw [e])
      · exact .inr (by rw [e])
  | bakingSign a d r o m => exact Dev.bakingSign_misses h _ _ _
  | authorize k a =>
    simp only [View.accept]
    rcases h.cr.publicKey k.curve k.path with e | e
    · exact .inl (by simp only [e, h4])
    · exact .inr (by rw [e])
  | setup k a m t c =>
    simp only [View.accept]
    rcases h.cr.publicKey k.curve k.path with e | e
    · exact .inl (by simp only [e, h1, h2, h3, h4])
    · exact .inr (by rw [e])
  | deauthorize a => exact .inl (by simp only [View.accept, h5])
  | _ => exact .inl rfl

theorem Dev.cmdReset_same (p : Option Bytes) : s.cmdReset env p = s.cmdReset env' p := by
  obtain ⟨h1, h2, h3, h4, h5⟩ := Dev.writes h
  unfold Dev.cmdReset Dev.resetHwm
  simp only [h1, h2, h3]

theorem Dev.exec_falls (cfg : Config) (c : Cmd) (p1 p2 : UInt8) (p : Option Bytes) :
    Res.Falls s (s.exec cfg env c p1 p2 p) (s.exec cfg env' c p1 p2 p) := by
  cases c with
  | reset => exact .inl (Dev.cmdReset_same h p)
  | authorize =>
    simp only [Dev.exec, Dev.cmdAuthorize]
    split
    · exact .inl rfl
    · refine Dev.withPath_falls fun k => ?_
      rcases newAddr_misses h.cr k.curve k.path with e | e
      · rw [e]
        split
        · exact .inl rfl
        · exact Dev.show_falls h _
      · rw [e]
        exact Res.fail_falls (.inl rfl)
  | deauthorize =>
    simp only [Dev.exec, Dev.cmdDeauthorize]
    split
    · exact .inl rfl
    · refine Dev.withKey_falls fun k => ?_
      rcases newAddr_misses h.cr k.curve k.path with e | e
      · rw [e]
        split
        · exact .inl rfl
        · exact Dev.show_falls h _
      · rw [e]
        exact Res.fail_falls (.inl rfl)
  | queryAuth w =>
    simp only [Dev.exec, Dev.cmdQueryAuth]
    refine Dev.withKey_falls fun k => ?_
    rcases newAddr_misses h.cr k.curve k.path with e | e
    · rw [e]
      split
      · exact .inl rfl
      · split
        · exact Dev.show_falls h _
        · exact .inl rfl
    · rw [e]
      exact Res.fail_falls (.inl rfl)
  | setup =>
    simp only [Dev.exec, Dev.cmdSetup]
    split
    · exact .inl rfl
    · split
      · exact .inl rfl
      · split
        · exact .inl rfl
        · split
          · exact .inl rfl
          · split
            · exact .inl rfl
            · rename_i curve _ _ _ _ _ _ path hp
              rcases newAddr_misses h.cr curve path with e | e
              · rw [e]
                split
                · exact .inl rfl
                · exact Dev.show_falls h _
              · rw [e]
                exact Res.fail_falls (.inl rfl)
  | hmac =>
    simp only [Dev.exec, Dev.cmdHmac]
    split
    · exact .inl rfl
    · split
      · exact .inl rfl
      · split
        · exact .inl rfl
        · split
          · exact .inl rfl
          · split
            · exact .inl rfl
            · rename_i curve _ _ _ _ _ _ path hp
              rcases h.cr.sign curve path hmacKeySha256 with e | e
              · rw [e]
                split
                · exact .inl rfl
                · rename_i sig _
                  rcases h.cr.sha512 sig with e | e
                  · rw [e]
                    split
                    · exact .inl rfl
                    · rename_i k _
                      rcases h.cr.hmac k _ with e | e
                      · exact .inl (by rw [e])
                      · rw [e]
                        exact Res.fail_falls (.inl rfl)
                  · rw [e]
                    exact Res.fail_falls (.inl rfl)
              · rw [e]
                exact Res.fail_falls (.inl rfl)
  | bakerSign b => exact Dev.cmdUpload_falls h _ _ _ _ fun _ _ _ _ _ => Dev.bakerSign_falls h _ _ _ _ _
  | sign b => exact Dev.cmdUpload_falls h _ _ _ _ fun _ _ _ _ _ => Dev.startSign_falls h _ _ _ _ _
  | getKey =>
    show Res.Falls s (s.cmdGetKey env p2 p) (s.cmdGetKey env' p2 p)
    refine Dev.withPath_falls fun k => ?_
    rcases h.cr.publicKey k.curve k.path with e | e
    · exact .inl (by rw [e])
    · rw [e]
      exact Res.fail_falls (.inl rfl)
  | promptAddr => exact addr true
  | getAddr => exact addr _
  | _ => exact .inl rfl
where
  addr (b : Bool) : Res.Falls s (s.cmdAddr env b p2 p) (s.cmdAddr env' b p2 p) := by
    refine Dev.withPath_falls fun k => ?_
    rcases h.cr.publicKey k.curve k.path with e | e
    · rw [e]
      split
      · exact .inl rfl
      · rename_i key _
        rcases ofKey_misses h.cr k.curve key with e | e
        · rw [e]
          split
          · exact .inl rfl
          · split
            · exact Dev.show_falls h _
            · exact .inl rfl
        · rw [e]
          exact Res.fail_falls (.inr rfl)
    · rw [e]
      exact Res.fail_falls (.inl rfl)

theorem Dev.dispatch_falls (cfg : Config) (buf : Bytes) (rx : Nat) :
    Res.Falls s (s.dispatch cfg env buf rx) (s.dispatch cfg env' buf rx) := by
  unfold Dev.dispatch
  split
  · exact .inl rfl
  · split
    · exact .inl rfl
    · split
      · exact .inl rfl
      · exact Dev.exec_falls h cfg _ _ _ _

end

theorem Res.deliver_main (r : Res) : r.deliver.1.main = r.st.main := by
  unfold Res.deliver
  split <;> rfl

theorem Res.Falls.deliver {s : Dev} {r r' : Res} (h : Res.Falls s r r') (hr : s.running = true)
    (hu : r.deliver.1.upl = r'.deliver.1.upl) : r.deliver = r'.deliver ∨ Tezos.Lost s r.deliver r'.deliver := by
  rcases h with h | h
  · exact .inl (by rw [h])
  · have hm : r.st.main = s.main ∨ r.st.main = r'.deliver.1.main := by rw [Res.deliver_main]; exact h.main
    right
    rw [Res.deliver_upl] at hu
    rcases h.out with e | e | ⟨e, e1, e2⟩ <;> (rw [Res.deliver, e]; dsimp only)
    · exact ⟨.inl rfl, rfl, rfl, h.running.trans hr, hm, h.test, h.chain, h.key, hu, fun _ =>
        .inl (h.pending (by rw [e]; simp))⟩
    · exact ⟨.inr (.inl rfl), rfl, rfl, h.running.trans hr, hm, h.test, h.chain, h.key, hu, fun _ =>
        .inl (h.pending (by rw [e]; simp))⟩
    · exact ⟨.inr (.inr ⟨rfl, e1, e2⟩), rfl, rfl, h.running.trans hr, hm, h.test, h.chain, h.key, hu, fun e => by cases e⟩

theorem Dev.step_upl_same (cfg : Config) {env env' : Env} (h : env.Misses env') (ev : Event) (s : Dev) :
    (s.step cfg env ev).1.upl = (s.step cfg env' ev).1.upl := by
  cases ev with
  | apdu buf rx =>
    simp only [Dev.step]
    split
    · rw [Res.deliver_upl, Res.deliver_upl]
      unfold Dev.dispatch
      split
      · rfl
      · split
        · rfl
        · split
          · rfl
          · rw [Dev.exec_upl, Dev.exec_upl, h.copy, h.append]
    · rfl
  | _ =>
    rw [Dev.step_upl cfg env s (by simp [Event.Full]), Dev.step_upl cfg env' s (by simp [Event.Full]), h.copy, h.append]

theorem Dev.redraw_fails {s : Dev} {u u' : Upd} {r : Dev × Output} (hr : s.running = true) (hv : s.view.isSome)
    (hu : s.upl = r.1.upl) (h : UFails u u') : s.redraw u = s.redraw u' ∨ Tezos.Lost s (s.redraw u) r := by
  rcases h with rfl | ⟨z, rfl⟩
  · exact .inl rfl
  · exact .inr ⟨.inr (.inr ⟨rfl, rfl, hv⟩), rfl, rfl, hr, .inl rfl, rfl, rfl, rfl, hu, fun e => by cases e⟩

theorem Dev.viewer_none {s : Dev} (h : s.view = none) (env : Env) : s.viewer env = none := by
  unfold Dev.viewer
  rw [h]
  rfl

theorem Dev.viewer_fails {env env' : Env} (h : env.Misses env') {s : Dev} {f : Option Viewer → Upd}
    (hf : ∀ v v', VLoses v v' → UFails (f (some v)) (f (some v'))) :
    f (s.viewer env) = f (s.viewer env') ∨ s.view.isSome ∧ UFails (f (s.viewer env)) (f (s.viewer env')) := by
  unfold Dev.viewer
  cases hv : s.view with
  | none => exact .inl rfl
  | some v => exact .inr ⟨rfl, hf _ _ (viewer_loses h.cr _ _)⟩

theorem Dev.pressBoth_lost {env env' : Env} (h : env.Misses env') {s : Dev} (hr : s.running = true) {r : Dev × Output}
    (hu : s.upl = r.1.upl) : s.pressBoth env = s.pressBoth env' ∨ Tezos.Lost s (s.pressBoth env) r := by
  unfold Dev.pressBoth
  dsimp only
  cases s.zui.chosen with
  | reject =>
    left
    dsimp only
    rw [Dev.viewer_none s.reject_view, Dev.viewer_none s.reject_view]
  | nothing =>
    dsimp only
    split
    · rename_i hj
      rcases Dev.viewer_fails h (s := s) (f := fun v => s.zui.expertJump v) (fun v v' hv => reviewUpdate_fails hv _) with
        e | ⟨hv, e⟩
      · rw [e]
        exact .inl rfl
      · rcases e with e | ⟨z, e⟩
        · rw [e]
          exact .inl rfl
        · rw [e]
          exact .inr ⟨.inr (.inr ⟨rfl, rfl, hv⟩), rfl, rfl, hr, .inl rfl, rfl, rfl, rfl, hu, fun e => by cases e⟩
    · exact .inl rfl
  | approve =>
    dsimp only
    cases hv : s.view with
    | none =>
      left
      have : s.approve env = s.approve env' := by
        unfold Dev.approve
        simp only [hv]
      rw [this]
      have hn : (s.approve env').1.view = none := by
        unfold Dev.approve
        simp only [hv]
      rw [Dev.viewer_none hn, Dev.viewer_none hn]
    | some v =>
      rcases View.accept_misses h (s := { s with zui := { s.zui with screen := .idle } }) v with e | e
      · left
        have : s.approve env = s.approve env' := by
          unfold Dev.approve
          simp only [hv]
          rw [show ({ s with zui := { s.zui with screen := .idle }, view := some v } : Dev) =
            { s with zui := { s.zui with screen := .idle } } from by rw [← hv]]
          rw [e]
        rw [this]
        have hn : (s.approve env').1.view = none := by
          unfold Dev.approve
          simp only [hv]
        rw [Dev.viewer_none hn, Dev.viewer_none hn]
      · right
        have he : s.approve env = ({ s with zui := { s.zui with screen := .idle }, view := none },
            ⟨some [0x64, 0x00], none, none⟩) := by
          unfold Dev.approve
          simp only [hv]
          rw [show ({ s with zui := { s.zui with screen := .idle }, view := some v } : Dev) =
            { s with zui := { s.zui with screen := .idle } } from by rw [← hv]]
          rw [e]
          rfl
        rw [he]
        dsimp only
        rw [Dev.viewer_none rfl]
        split
        · exact ⟨.inl rfl, rfl, rfl, hr, .inl rfl, rfl, rfl, rfl, hu, fun _ => .inr ⟨by rw [hv]; rfl, rfl⟩⟩
        · exact ⟨.inl rfl, rfl, rfl, hr, .inl rfl, rfl, rfl, rfl, hu, fun _ => .inr ⟨by rw [hv]; rfl, rfl⟩⟩

/-- C94: take any state and any event, and let any of the cryptographic system calls made during it fail. What happens is
exactly what would have happened without the failures, or the request is lost: see `Lost`. -/
theorem C94_lost (cfg : Config) (s : Dev) (env env' : Env) (h : env.Misses env') (ev : Event) :
    s.step cfg env ev = s.step cfg env' ev ∨ Tezos.Lost s (s.step cfg env ev) (s.step cfg env' ev) := by
  have hu := Dev.step_upl_same cfg h ev s
  cases ev with
  | relaunch => exact .inl rfl
  | expert => exact .inl rfl
  | apdu buf rx =>
    simp only [Dev.step] at *
    split
    · rename_i hr
      rw [if_pos hr, if_pos hr] at hu
      exact (Dev.dispatch_falls h cfg buf rx).deliver hr hu
    · exact .inl rfl
  | left =>
    simp only [Dev.step] at *
    split
    · rename_i hr
      rw [if_pos hr, if_pos hr] at hu
      cases hsc : s.zui.screen with
      | review a b c =>
        simp only [hsc] at hu
        rcases Dev.viewer_fails h (s := s) (f := fun v => s.zui.goLeft v) (fun v v' hv => goLeft_fails hv _) with
          e | ⟨hv, e⟩
        · exact .inl (by rw [e])
        · exact Dev.redraw_fails hr hv (Dev.redraw_upl _ _).symm e
      | error => exact .inl rfl
      | idle => exact .inl rfl
    · exact .inl rfl
  | right =>
    simp only [Dev.step] at *
    split
    · rename_i hr
      cases hsc : s.zui.screen with
      | review a b c =>
        rcases Dev.viewer_fails h (s := s) (f := fun v => s.zui.goRight v) (fun v v' hv => goRight_fails hv _) with
          e | ⟨hv, e⟩
        · exact .inl (by rw [e])
        · exact Dev.redraw_fails hr hv (Dev.redraw_upl _ _).symm e
      | error => exact .inl rfl
      | idle => exact .inl rfl
    · exact .inl rfl
  | both =>
    simp only [Dev.step] at *
    split
    · rename_i hr
      cases hsc : s.zui.screen with
      | review a b c => exact Dev.pressBoth_lost h hr (Dev.pressBoth_upl env' s).symm
      | error => exact .inl rfl
      | idle => exact .inl rfl
    · exact .inl rfl

/-- C94, in short: under failing system calls the device signs nothing, stores nothing and stops for no reason that it
would not have without the failures. -/
theorem C94_nothing_more (cfg : Config) (s : Dev) (env env' : Env) (h : env.Misses env') (ev : Event) (r r' : Dev × Output)
    (hr : r = s.step cfg env ev) (hr' : r' = s.step cfg env' ev) :
    (∀ x, r.2.sig = some x → r'.2.sig = some x) ∧ (∀ f, r.2.fault = some f → r'.2.fault = some f) ∧
    (r.1.main = s.main ∨ r.1.main = r'.1.main) ∧ (r.1.test = s.test ∨ r.1.test = r'.1.test) ∧
    (r.1.chain = s.chain ∨ r.1.chain = r'.1.chain) ∧ (r.1.key = s.key ∨ r.1.key = r'.1.key) := by
  subst hr hr'
  rcases C94_lost cfg s env env' h ev with e | e
  · rw [e]
    exact ⟨fun _ => id, fun _ => id, .inr rfl, .inr rfl, .inr rfl, .inr rfl⟩
  · refine ⟨fun x hx => ?_, fun f hf => ?_, e.main, .inl e.test, .inl e.chain, .inl e.key⟩
    · rw [e.sig] at hx
      cases hx
    · rw [e.fault] at hf
      cases hf

/-- The same system calls, with some result of the right size in place of each failure. -/
def Crypto.repaired (cr : Crypto) : Crypto where
  sha256 m := some ((cr.sha256 m).getD (List.replicate 32 0))
  sha512 m := some ((cr.sha512 m).getD (List.replicate 64 0))
  blake2b n m := some ((cr.blake2b n m).getD (List.replicate n 0))
  hmac k m := some ((cr.hmac k m).getD (List.replicate 32 0))
  publicKey c p := some ((cr.publicKey c p).getD (List.replicate
    (match c with | .ed25519 | .bip32Ed25519 => 33 | .secp256k1 | .secp256r1 => 65) 0))
  sign c p d := some ((cr.sign c p d).getD [])

theorem misses_getD {α : Type} (a : Option α) (d : α) : Misses a (some (a.getD d)) := by
  cases a with
  | none => exact .inr rfl
  | some x => exact .inl rfl

theorem Crypto.misses_repaired (cr : Crypto) : cr.Misses cr.repaired :=
  ⟨fun _ => misses_getD _ _, fun _ => misses_getD _ _, fun _ _ => misses_getD _ _, fun _ _ => misses_getD _ _,
    fun _ _ => misses_getD _ _, fun _ _ _ => misses_getD _ _⟩

theorem getD_holds {α : Type} {a : Option α} {d x : α} {p : α → Prop} (hd : p d) (ha : ∀ y, a = some y → p y)
    (h : some (a.getD d) = some x) : p x := by
  cases a with
  | none => cases h; exact hd
  | some y => cases h; exact ha y rfl

theorem Crypto.Sized.repaired {cr : Crypto} (h : cr.Sized) : cr.repaired.Sized where
  sha256 e := getD_holds (p := fun d => d.length = 32) (by simp) (fun _ => h.sha256) e
  sha512 e := getD_holds (p := fun d => d.length = 64) (by simp) (fun _ => h.sha512) e
  blake2b {n _ _} e := getD_holds (p := fun d => d.length = n) (by simp) (fun _ => h.blake2b) e
  hmac e := getD_holds (p := fun d => d.length = 32) (by simp) (fun _ => h.hmac) e
  publicKey {c p _} e := by
    have hk := fun k => h.publicKey (c := c) (p := p) (k := k)
    cases c <;> exact getD_holds (p := fun d => d.length = _) (List.length_replicate ..) (fun k => hk k) e
  sign e := getD_holds (p := fun d => d.length ≤ 100) (by simp) (fun _ => h.sign) e

/-- C94, of whole histories: also when the cryptographic system calls fail during a request, it is answered as the table
in Spec/Answers.lean says, or it is lost. The flash is written when it is to be. -/
theorem C94_answers (cfg : Config) (new : NewDevice) (hu : new.upload.length = uploadCapacity) (es : List (Env × Event))
    (hes : ∀ e ∈ es, Kind e.1 e.2 ∧ Good e.1 e.2) (hlen : es.length < 2 ^ 64) (s : Dev)
    (hs : s = ((Dev.factory new).run cfg es).1) (hrun : s.running = true) (env : Env) (hcr : env.cr.Sized)
    (hf : env = ⟨env.cr, .done, .done, .done, .done, .done, .done⟩) (ev : Event) (ins p1 p2 : UInt8) (data : Bytes)
    (hc : Carries ev ins p1 p2 data) :
    Fits s (s.step cfg env ev).1 (s.step cfg env ev).2
      (answer cfg.build s.keyName s.lastItem (sessionIn cfg ((Dev.factory new).trace cfg es)) ins p1 p2 data) ∨
    ∃ env', env.Misses env' ∧ Serves env' ∧ Tezos.Lost s (s.step cfg env ev) (s.step cfg env' ev) := by
  have hm : env.Misses ⟨env.cr.repaired, .done, .done, .done, .done, .done, .done⟩ := by
    rw [hf]
    exact ⟨Crypto.misses_repaired _, rfl, rfl, rfl, rfl, rfl, rfl⟩
  have hv : Serves ⟨env.cr.repaired, .done, .done, .done, .done, .done, .done⟩ :=
    ⟨⟨hcr.repaired, fun _ => rfl, fun _ => rfl⟩, fun _ => rfl, fun _ => rfl, fun _ _ => rfl, fun _ _ => rfl,
      fun _ _ _ => rfl, rfl, rfl, rfl, rfl, rfl, rfl⟩
  rcases C94_lost cfg s env _ hm ev with e | e
  · rw [e]
    exact .inl (C87_answers cfg new hu es hes hlen s hs hrun _ hv ev ins p1 p2 data hc)
  · exact .inr ⟨_, hm, hv, e⟩

namespace Demo

/-- A system that cannot sign. -/
def noSign : Env := { fine with cr := { crypto with sign := fun _ _ _ => none } }

/-- A system that cannot compute SHA-256. -/
def noSha : Env := { fine with cr := { crypto with sha256 := fun _ => none } }

theorem noSign_misses : noSign.Misses fine :=
  ⟨⟨fun _ => .inl rfl, fun _ => .inl rfl, fun _ _ => .inl rfl, fun _ _ => .inl rfl, fun _ _ => .inl rfl,
    fun _ _ _ => .inr rfl⟩, rfl, rfl, rfl, rfl, rfl, rfl⟩

theorem noSha_misses : noSha.Misses fine :=
  ⟨⟨fun _ => .inr rfl, fun _ => .inl rfl, fun _ _ => .inl rfl, fun _ _ => .inl rfl, fun _ _ => .inl rfl,
    fun _ _ _ => .inl rfl⟩, rfl, rfl, rfl, rfl, rfl, rfl⟩

/-- The state in which a consensus message has been announced. -/
def announced : Dev := (fresh.run bakingApp (setup 5 ++ ok [apdu 0x04 0 0 keyPath])).1

set_option maxRecDepth 100000 in
/-- A block that could not be signed is lost, not the same; the watermark is the one of the block. -/
example : (announced.step bakingApp noSign (apdu 0x04 0x81 0 (emmyBlock 8))).2 = ⟨some [0x64, 0x00], none, none⟩ ∧
    (announced.step bakingApp fine (apdu 0x04 0x81 0 (emmyBlock 8))).2.sig.isSome ∧
    (announced.step bakingApp noSign (apdu 0x04 0x81 0 (emmyBlock 8))).1.main ≠ announced.main ∧
    Tezos.Lost announced (announced.step bakingApp noSign (apdu 0x04 0x81 0 (emmyBlock 8)))
      (announced.step bakingApp fine (apdu 0x04 0x81 0 (emmyBlock 8))) := by
  refine ⟨by decide +kernel, by decide +kernel, by decide +kernel, ?_⟩
  refine (C94_lost bakingApp announced noSign fine noSign_misses _).resolve_left fun e => ?_
  have := congrArg (·.2.sig) e
  revert this
  decide +kernel

set_option maxRecDepth 100000 in
/-- A review whose first text cannot be computed comes up with the error screen and is pending. -/
example : (announced.step bakingApp noSha (apdu 0x04 0x81 0 (delegation 0))).2 = .quiet ∧
    (announced.step bakingApp noSha (apdu 0x04 0x81 0 (delegation 0))).1.zui.screen = .error ∧
    (announced.step bakingApp noSha (apdu 0x04 0x81 0 (delegation 0))).1.view.isSome ∧
    isReview (announced.step bakingApp fine (apdu 0x04 0x81 0 (delegation 0))).1.zui.screen := by
  refine ⟨?_, ?_, ?_, ?_⟩ <;> decide +kernel

set_option maxRecDepth 100000 in
/-- An address that cannot be computed is answered 0x6984. -/
example : (fresh.step walletApp noSha (apdu 0x11 0 0 keyPath)).2 = ⟨some [0x69, 0x84], none, none⟩ := by
  decide +kernel

end Demo
end Tezos
