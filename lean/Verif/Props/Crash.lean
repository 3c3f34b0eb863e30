import Verif.Calm
import Verif.Props.Records
import Verif.Props.Reviews
import Verif.Props.Dispatch
import Verif.Sessions
/-
C30: the app does not abort.

What is assumed of the outside world (`Firm`): hashes have the length asked for, flash writes complete or are cut by a
power loss, and a page that was being written is left in a state that passes its checksum. The last condition excludes
the pages on which the app cannot start any more (C05), the second the failed writes of C08.
-/
namespace Spec
open Tezos

/-- A block whose fitness is the version byte of Tenderbake with one to four bytes after it: too short for a round. -/
def ShortFitness (m : Bytes) : Prop :=
  ∃ b header n fitness rest, m = b :: header ++ beEnc 4 n ++ fitness ++ rest ∧ (b = 0x01 ∨ b = 0x11) ∧
    header.length = 82 ∧ fitness.length = n ∧ 5 ≤ n ∧ n < 9 ∧ fitness[4]? = some 2

end Spec

namespace Tezos
open Spec (Item consensusItem Session Packet feed ShortFitness u32At uploadCapacity)

theorem shortFitness_iff {m : Bytes} :
    ShortFitness m ↔ (m[0]? = some 0x01 ∨ m[0]? = some 0x11) ∧ blockAborts m := by
  constructor
  · rintro ⟨b, hd, n, fit, rest, rfl, hb, hl, hn, h5, h9, hv⟩
    have hs : slice (b :: hd ++ beEnc 4 n ++ fit ++ rest) 83 4 = beEnc 4 n := by
      unfold slice
      rw [List.append_assoc, List.append_assoc, List.drop_append, List.drop_of_length_le (by simp [hl])]
      rw [show 83 - (b :: hd).length = 0 by simp [hl]]
      simp
    have hu : u32At (b :: hd ++ beEnc 4 n ++ fit ++ rest) 83 = n := by
      unfold u32At
      rw [hs]
      exact beDec_beEnc_of_lt (by simp; omega)
    refine ⟨by rcases hb with rfl | rfl <;> simp, ?_⟩
    unfold blockAborts
    rw [hu]
    refine ⟨by simp [hl]; omega, h9, h5, by simp [hl, hn]; omega, ?_⟩
    rw [List.append_assoc, List.getElem?_append_right (by simp [hl])]
    rw [List.getElem?_append_left (by simp [hl]; omega)]
    simpa [hl] using hv
  · rintro ⟨h0, h1, h2, h3, h4, h5⟩
    cases m with
    | nil => simp at h1
    | cons b t =>
      have hu : beEnc 4 (u32At (b :: t) 83) = slice (b :: t) 83 4 := by
        have := beEnc_beDec (slice (b :: t) 83 4)
        rwa [slice_length (by omega)] at this
      refine ⟨b, t.take 82, u32At (b :: t) 83, slice (b :: t) 87 (u32At (b :: t) 83),
        (b :: t).drop (87 + u32At (b :: t) 83), ?_, by simpa using h0, by simp at h1 ⊢; omega, ?_, h3, h2, ?_⟩
      · rw [hu]
        unfold slice
        generalize u32At (b :: t) 83 = n
        have h : b :: t.take 82 = (b :: t).take 83 := rfl
        rw [h, ← List.take_add, ← List.take_add, List.take_append_drop]
      · unfold slice
        simp at h4 ⊢
        omega
      · unfold slice
        rw [List.getElem?_take_of_lt (by omega), List.getElem?_drop]
        exact h5

/-! ### Records -/

/-- Every page of the record passes its checksum. -/
structure Store.Firm (st : Store) : Prop where
  pos : st.pages.length ≠ 0
  pages : ∀ p ∈ st.pages, Slot.ofPage p ≠ none

/-- The page is left passing its checksum. -/
def PageLeft.Whole : PageLeft → Prop
  | .other page => Slot.ofPage page ≠ none
  | _ => True

def Fate.Whole : Fate → Prop
  | .done => True
  | .fails left => left.Whole
  | .powerLoss left => left.Whole

theorem alignLoop_firm {l : List Bytes} (h : ∀ p ∈ l, Slot.ofPage p ≠ none) (m : Nat) : alignLoop m l ≠ none := by
  induction l generalizing m with
  | nil => simp [alignLoop]
  | cons p ps ih =>
    unfold alignLoop
    split
    · rename_i hp
      exact absurd hp (h p (by simp))
    · exact ih (fun q hq => h q (by simp [hq])) _

theorem Store.Firm.wear {st : Store} (h : st.Firm) : ∃ i, st.wear = .ok ⟨st.pages, i⟩ := by
  unfold Store.wear
  split
  · exact ⟨_, rfl⟩
  · unfold Wear.new
    cases ha : alignLoop 0 st.pages with
    | none => exact absurd ha (alignLoop_firm h.pages 0)
    | some m => exact ⟨m, rfl⟩

theorem Store.Firm.read {st : Store} (h : st.Firm) : st.read ≠ .panic := by
  obtain ⟨i, hw⟩ := h.wear
  unfold Store.read
  simp only [hw, Wear.read]
  have hlt : i % st.pages.length < st.pages.length := Nat.mod_lt _ (Nat.pos_of_ne_zero h.pos)
  rw [List.getElem?_eq_getElem hlt]
  simp only
  split
  · simp
  · rename_i hx
    split at hx
    · cases hx
    · split at hx <;> cases hx
  · simp

/-- Writing a record. -/
theorem Store.Firm.write {st : Store} (h : st.Firm) {f : Fate} {b : Bytes} (hf : f.Whole) (hb : b.length = slotSize) :
    (st.write f b).1.Firm ∧ (st.write f b).2 ≠ .panic ∧
      ((st.write f b).2 = .powerLoss → ∃ l, f = .powerLoss l) := by
  obtain ⟨i, hw⟩ := h.wear
  unfold Store.write
  simp only [hw, Wear.write]
  rw [if_neg h.pos]
  have hset : ∀ (n : Nat) (p : Bytes) (c : Option Nat), Slot.ofPage p ≠ none →
      Store.Firm ⟨st.pages.set n p, c⟩ := by
    intro n p c hp
    refine ⟨by simpa using h.pos, fun q hq => ?_⟩
    rcases List.mem_or_eq_of_mem_set hq with hq | rfl
    · exact h.pages q hq
    · exact hp
  have hnew : Slot.ofPage (Slot.toPage ((i + 1) % 2 ^ 64) b) ≠ none := by
    rw [Slot.ofPage_toPage (Nat.mod_lt _ (by decide)) hb]
    simp
  have hleft : ∀ l : PageLeft, l.Whole → Slot.ofPage (l.page ⟨st.pages, i⟩ b) ≠ none := by
    intro l hl
    cases l with
    | unchanged =>
      have hlt : (i + 1) % 2 ^ 64 % st.pages.length < st.pages.length := Nat.mod_lt _ (Nat.pos_of_ne_zero h.pos)
      simp only [PageLeft.page, List.getD_eq_getElem?_getD, List.getElem?_eq_getElem hlt, Option.getD_some]
      exact h.pages _ (List.getElem_mem hlt)
    | complete => exact hnew
    | other p => exact hl
  cases f with
  | done => exact ⟨hset _ _ _ hnew, by simp [Fate.forWear], by simp [Fate.forWear]⟩
  | fails l => exact ⟨hset _ _ _ (hleft l hf), by simp [Fate.forWear], by simp [Fate.forWear]⟩
  | powerLoss l => exact ⟨hset _ _ _ (hleft l hf), by simp [Fate.forWear], fun _ => ⟨l, rfl⟩⟩

theorem Store.Firm.relaunch {st : Store} (h : st.Firm) : st.relaunch.Firm := ⟨h.pos, h.pages⟩

theorem Store.Firm.fresh {n : Nat} (hn : n ≠ 0) : Store.Firm ⟨freshPages n, none⟩ := by
  refine ⟨by simpa [freshPages] using hn, fun p hp => ?_⟩
  simp only [freshPages, List.mem_replicate] at hp
  rw [hp.2, Slot.ofPage_zeroed]
  simp

/-- All records. -/
structure Dev.Solid (s : Dev) : Prop where
  main : s.main.Firm
  test : s.test.Firm
  chain : s.chain.Firm
  key : s.key.Firm

/-! ### The outside world -/

/-- Flash writes complete, or are cut by a power loss and leave their page whole; the hashes work as documented; the
exchange buffer has its size. -/
structure Firm (env : Env) (ev : Event) : Prop where
  sized : env.cr.Sized
  main : env.mainF.Whole
  test : env.testF.Whole
  chain : env.chainF.Whole
  key : env.keyF.Whole
  copy : ∀ j, env.copyF ≠ .fails j
  append : ∀ j, env.appendF ≠ .fails j
  full : ev.Full

/-- The power fails during a flash write of this event. -/
def Env.Cuts (env : Env) : Prop :=
  (∃ l, env.mainF = .powerLoss l) ∨ (∃ l, env.testF = .powerLoss l) ∨ (∃ l, env.chainF = .powerLoss l) ∨
  (∃ l, env.keyF = .powerLoss l) ∨ (∃ l, env.copyF = .powerLoss l) ∨ ∃ l, env.appendF = .powerLoss l

/-! ### Handlers -/

/-- The result is an abort only if `P`, a power loss only if the power fails; the records are whole. -/
structure Res.Safe (env : Env) (P : Prop) (r : Res) : Prop where
  fault : ∀ f, r.out = .fault f → (f = .powerLoss ∧ env.Cuts) ∨ (f = .panic ∧ P)
  solid : r.st.Solid

section
variable {env : Env} {P : Prop} {s : Dev}

theorem Dev.Solid.fail (h : s.Solid) (e : ApduError) : (s.fail e).Safe env P := ⟨nofun, h⟩

theorem Dev.Solid.ok (h : s.Solid) (b : Bytes) : (s.ok b).Safe env P := ⟨nofun, h⟩

theorem Dev.Solid.afterWrite {r : WriteRes} {e : ApduError} {k : Dev → Res} (h : s.Solid) (hp : r ≠ .panic)
    (hc : r = .powerLoss → env.Cuts) (hk : (k s).Safe env P) : (s.afterWrite r e k).Safe env P := by
  unfold Dev.afterWrite
  split
  · exact hk
  · exact h.fail e
  · exact ⟨fun f hf => (by cases hf; exact .inl ⟨rfl, hc rfl⟩), h⟩
  · exact absurd rfl hp

theorem Dev.Solid.withRead {r : ReadRes} {e : ApduError} {k : Bytes → Res} (h : s.Solid) (hp : r ≠ .panic)
    (hk : ∀ b, (k b).Safe env P) : (s.withRead r e k).Safe env P := by
  unfold Dev.withRead
  split
  · exact hk _
  · exact h.fail e
  · exact absurd rfl hp

theorem Dev.Solid.withKey {e e' : ApduError} {k : PathAndCurve → Res} (h : s.Solid)
    (hk : ∀ b, (k b).Safe env P) : (s.withKey e e' k).Safe env P := by
  refine h.withRead h.key.read fun b => ?_
  split
  · exact h.fail _
  · exact h.fail _
  · exact hk _

theorem Dev.Solid.withPath {n : Nat} {p2 : UInt8} {payload : Option Bytes} {k : PathAndCurve → Res} (h : s.Solid)
    (hk : ∀ c p, payload = some p → Path.read n p = .ok c.path → (k c).Safe env P) :
    (s.withPath n p2 payload k).Safe env P := by
  unfold Dev.withPath
  split
  · exact h.fail _
  split
  · exact h.fail _
  split
  · exact h.fail _
  · rename_i hr
    exact hk _ _ rfl hr

variable {ev : Event} (hf : Firm env ev)
include hf

theorem Dev.Solid.writeMain (h : s.Solid) {e : ApduError} {w : WaterMark} {k : Dev → Res}
    (hk : ∀ s' : Dev, s'.Solid → s'.view = s.view → (k s').Safe env P) :
    ((s.writeMain env w).1.afterWrite (s.writeMain env w).2 e k).Safe env P := by
  obtain ⟨h1, h2, h3⟩ := h.main.write hf.main w.encode_length
  have hs : (s.writeMain env w).1.Solid := ⟨h1, h.test, h.chain, h.key⟩
  exact hs.afterWrite h2 (fun hr => .inl (h3 hr)) (hk _ hs rfl)

theorem Dev.Solid.writeTest (h : s.Solid) {e : ApduError} {w : WaterMark} {k : Dev → Res}
    (hk : ∀ s' : Dev, s'.Solid → s'.view = s.view → (k s').Safe env P) :
    ((s.writeTest env w).1.afterWrite (s.writeTest env w).2 e k).Safe env P := by
  obtain ⟨h1, h2, h3⟩ := h.test.write hf.test w.encode_length
  have hs : (s.writeTest env w).1.Solid := ⟨h.main, h1, h.chain, h.key⟩
  exact hs.afterWrite h2 (fun hr => .inr (.inl (h3 hr))) (hk _ hs rfl)

theorem Dev.Solid.writeChain (h : s.Solid) {e : ApduError} {c : UInt32} {k : Dev → Res}
    (hk : ∀ s' : Dev, s'.Solid → s'.view = s.view → (k s').Safe env P) :
    ((s.writeChain env c).1.afterWrite (s.writeChain env c).2 e k).Safe env P := by
  obtain ⟨h1, h2, h3⟩ := h.chain.write hf.chain (chainId_length c)
  have hs : (s.writeChain env c).1.Solid := ⟨h.main, h.test, h1, h.key⟩
  exact hs.afterWrite h2 (fun hr => .inr (.inr (.inl (h3 hr)))) (hk _ hs rfl)

theorem Dev.Solid.storeKey (h : s.Solid) {e : ApduError} {c : PathAndCurve} (hc : c.path.length ≤ 10)
    {k : Dev → Res} (hk : ∀ s' : Dev, s'.Solid → s'.view = s.view → (k s').Safe env P) :
    ((s.storeKey env c).1.afterWrite (s.storeKey env c).2 e k).Safe env P := by
  obtain ⟨h1, h2, h3⟩ := h.key.write hf.key (PathAndCurve.encode_length hc)
  have hs : (s.storeKey env c).1.Solid := ⟨h.main, h.test, h.chain, h1⟩
  exact hs.afterWrite h2 (fun hr => .inr (.inr (.inr (.inl (h3 hr))))) (hk _ hs rfl)

theorem Dev.Solid.removeKey (h : s.Solid) {e : ApduError}
    {k : Dev → Res} (hk : ∀ s' : Dev, s'.Solid → s'.view = s.view → (k s').Safe env P) :
    ((s.removeKey env).1.afterWrite (s.removeKey env).2 e k).Safe env P := by
  obtain ⟨h1, h2, h3⟩ := h.key.write hf.key (b := PathAndCurve.empty) (by decide)
  have hs : (s.removeKey env).1.Solid := ⟨h.main, h.test, h.chain, h1⟩
  exact hs.afterWrite h2 (fun hr => .inr (.inr (.inr (.inl (h3 hr))))) (hk _ hs rfl)

theorem Dev.Solid.resetHwm (h : s.Solid) (l : UInt32) : (s.resetHwm env l).Safe env P := by
  unfold Dev.resetHwm
  refine h.writeMain hf fun s1 h1 _ => h1.writeTest hf fun s2 h2 _ => ?_
  split
  · rename_i hr
    exact absurd hr h2.chain.read
  · exact h2.writeChain hf fun s3 h3 _ => h3.ok _
  · exact h2.ok _

omit hf in
theorem Dev.Solid.bakingSign (h : s.Solid) (hh : Bool) (d m : Bytes) : (s.bakingSign env hh d m).Safe env P := by
  unfold Dev.bakingSign
  refine h.withKey fun k => ?_
  split
  · exact h.fail _
  · exact ⟨nofun, h⟩

/-- Approving a review. -/
theorem Dev.Solid.accept (h : s.Solid) {v : View} (hv : v.Firm) (ho : v.Ok) : (v.accept env s).Safe env P := by
  cases v with
  | sign =>
    simp only [View.accept]
    split
    · exact h.fail _
    · split
      · exact h.fail _
      · exact ⟨nofun, ⟨h.1, h.2, h.3, h.4⟩⟩
  | bakingSign => exact h.bakingSign _ _ _
  | addr a key w =>
    have : a.base58 = .ok _ := base58_fits_address (hv.address a rfl)
    simp only [View.accept, this]
    split <;> exact h.ok _
  | authorize =>
    simp only [View.accept]
    split
    · exact h.fail _
    · exact h.storeKey hf ho.2 fun s' h' _ => h'.ok _
  | deauthorize => exact h.removeKey hf fun s' h' _ => h'.ok _
  | query => exact h.ok _
  | setup =>
    simp only [View.accept]
    split
    · exact h.fail _
    · exact h.storeKey hf ho.2 fun s1 h1 _ => h1.writeMain hf fun s2 h2 _ => h2.writeTest hf fun s3 h3 _ =>
        h3.writeChain hf fun s4 h4 _ => h4.ok _

/-- Opening a review. -/
theorem Dev.Solid.show (h : s.Solid) {v : View} (hv : v.Firm) : (s.show env v).Safe env P := by
  have hr := Zui.openReview_calm (v := v.viewer env.cr s.upl.buf)
    ⟨View.viewer_calm hf.sized hv _, View.viewer_short hf.sized hv.tidy _⟩ s.zui
  unfold Dev.show
  dsimp only
  split
  · exact ⟨nofun, ⟨h.1, h.2, h.3, h.4⟩⟩
  · exact ⟨nofun, ⟨h.1, h.2, h.3, h.4⟩⟩
  · refine ⟨nofun, ?_⟩
    cases v <;> exact ⟨h.1, h.2, h.3, h.4⟩
  · rename_i hx
    exact absurd hx hr.1
  · rename_i hx
    exact absurd hx hr.2

omit hf in
theorem View.Firm.plain {v : View} {a : Addr} (ha : a.bytes.length = 27) (h : v.address = some a) : v.Firm := by
  have ht : v.Tidy := by cases v <;> trivial
  refine ⟨ht, fun b hb => ?_⟩
  rw [h] at hb
  cases hb
  exact ha

theorem Dev.Solid.cmdAuthorize (h : s.Solid) (p1 p2 : UInt8) (pl : Option Bytes) :
    (s.cmdAuthorize env p1 p2 pl).Safe env P := by
  unfold Dev.cmdAuthorize
  split
  · exact h.fail _
  refine h.withPath fun k p _ _ => ?_
  split
  · exact h.fail _
  · rename_i ha
    exact h.show hf (.plain (newAddr_length' hf.sized ha) rfl)

theorem Dev.Solid.cmdDeauthorize (h : s.Solid) (p1 : UInt8) : (s.cmdDeauthorize env p1).Safe env P := by
  unfold Dev.cmdDeauthorize
  split
  · exact h.fail _
  refine h.withKey fun k => ?_
  split
  · exact h.fail _
  · rename_i ha
    exact h.show hf (.plain (newAddr_length' hf.sized ha) rfl)

theorem Dev.Solid.cmdQueryAuth (h : s.Solid) (wc : Bool) (p1 : UInt8) : (s.cmdQueryAuth env wc p1).Safe env P := by
  unfold Dev.cmdQueryAuth
  refine h.withKey fun k => ?_
  split
  · exact h.fail _
  · rename_i ha
    have hv := newAddr_length' hf.sized ha
    split
    · exact h.show hf (.plain hv rfl)
    · exact h.accept hf (.plain hv rfl) trivial

theorem Dev.Solid.cmdSetup (h : s.Solid) (p2 : UInt8) (pl : Option Bytes) : (s.cmdSetup env p2 pl).Safe env P := by
  unfold Dev.cmdSetup
  split
  · exact h.fail _
  split
  · exact h.fail _
  split
  · exact h.fail _
  dsimp only
  split
  · exact h.fail _
  split
  · exact h.fail _
  split
  · exact h.fail _
  · rename_i ha
    exact h.show hf (.plain (newAddr_length' hf.sized ha) rfl)

omit hf in
theorem Dev.Solid.cmdHmac (h : s.Solid) (p2 : UInt8) (pl : Option Bytes) : (s.cmdHmac env p2 pl).Safe env P := by
  unfold Dev.cmdHmac
  split
  · exact h.fail _
  split
  · exact h.fail _
  split
  · exact h.fail _
  dsimp only
  split
  · exact h.fail _
  split
  · exact h.fail _
  split
  · exact h.fail _
  split
  · exact h.fail _
  split
  · exact h.fail _
  · exact h.ok _

theorem Dev.Solid.cmdAddr (h : s.Solid) (w : Bool) (p2 : UInt8) (pl : Option Bytes) :
    (s.cmdAddr env w p2 pl).Safe env P := by
  unfold Dev.cmdAddr
  refine h.withPath fun k p _ _ => ?_
  split
  · exact h.fail _
  split
  · exact h.fail _
  · rename_i ha
    have hv := newAddr_length hf.sized ha
    split
    · exact h.show hf (.plain hv rfl)
    · exact h.accept hf (.plain hv rfl) trivial

omit hf in
theorem Dev.Solid.cmdGetKey (h : s.Solid) (p2 : UInt8) (pl : Option Bytes) : (s.cmdGetKey env p2 pl).Safe env P := by
  unfold Dev.cmdGetKey
  refine h.withPath fun k p _ _ => ?_
  split
  · exact h.fail _
  · exact h.ok _

theorem Dev.Solid.startSign (h : s.Solid) (hh : Bool) (p2 : UInt8) (first data : Bytes) (ref : MemRef) :
    (s.startSign env hh p2 first data ref).Safe env P := by
  unfold Dev.startSign
  refine h.withPath fun k p _ _ => ?_
  have h' : Dev.Solid { s with path := some (k.path, k.curve) } := ⟨h.1, h.2, h.3, h.4⟩
  dsimp only
  split
  · exact h'.fail _
  · rename_i digest hd
    have hv : ∀ r, (View.sign hh digest r data).Firm := fun r =>
      ⟨hf.sized.blake2b hd, fun _ e => (by cases e)⟩
    split
    · rename_i hx
      exact absurd hx (preamble_calm _)
    · exact h'.fail _
    · split
      · rename_i hx
        exact absurd hx (operationNew_calm _)
      · exact h'.fail _
      · exact h'.show hf (hv _)
    · exact h'.show hf (hv _)
    · exact h'.fail _

theorem Dev.Solid.autoSign (h : s.Solid) {hh : Bool} {d m : Bytes} {dec : WaterMark → Except HErr WaterMark}
    (hdec : ∀ w, dec w = .error .panic → P) : (s.autoSign env hh d m dec).Safe env P := by
  unfold Dev.autoSign
  refine h.withRead h.main.read fun b => ?_
  split
  · rename_i hx
    exact ⟨fun f hf => (by cases hf; exact .inr ⟨rfl, hdec _ hx⟩), h⟩
  · exact h.fail _
  · exact h.writeMain hf fun s1 h1 _ => h1.bakingSign _ _ _

theorem Dev.Solid.handleDelegation (h : s.Solid) (hh : Bool) (d rem m : Bytes) (ref : MemRef) :
    (s.handleDelegation env hh d rem m ref).Safe env P := by
  unfold Dev.handleDelegation
  split
  · rename_i hx
    exact absurd hx (operationNew_calm _)
  · exact h.fail _
  · rename_i branch ops ho
    have hv : ∀ (op : Op), op.WF → (View.bakingSign hh d ref op m).Firm := fun op hop =>
      ⟨hop, fun _ e => (by cases e)⟩
    split
    · rename_i hx
      exact absurd hx (parseNext_calm _)
    · exact h.fail _
    · exact h.fail _
    · rename_i hn
      exact h.show hf (hv _ (Op.fromBytes_WF (parseNext_some hn)))
    · rename_i hn
      exact h.show hf (hv _ (Op.fromBytes_WF (parseNext_some hn)))
    · exact h.fail _

theorem Dev.Solid.bakerSign (h : s.Solid) (hh : Bool) (p2 : UInt8) (first data : Bytes) (ref : MemRef) :
    (s.bakerSign env hh p2 first data ref).Safe env (ShortFitness data) := by
  unfold Dev.bakerSign
  refine h.withPath fun k p _ _ => h.withKey fun stored => ?_
  split
  · exact h.fail _
  split
  · exact h.fail _
  split
  · rename_i hx
    exact absurd hx (preamble_calm _)
  · exact h.fail _
  · rename_i rem p hp
    have he : ∀ w, specDecide data w ≠ .error .panic := by
      intro w
      unfold specDecide
      split
      · simp
      · split <;> simp
    have hend : (p = .endorsement ∨ p = .tenderbakePreendorsement ∨ p = .tenderbakeEndorsement) →
        ∀ w, endorsementDecide p rem w = .error .panic → ShortFitness data := by
      intro hc w hw
      rw [endorsementDecide_eq hp hc] at hw
      exact absurd hw (he w)
    have hblk : (p = .block ∨ p = .tenderbakeBlock) → ∀ w, blockDecide p rem w = .error .panic →
        ShortFitness data := by
      intro hc w hw
      rw [blockDecide_eq hp hc] at hw
      split at hw
      · rename_i ha
        refine shortFitness_iff.mpr ⟨?_, ha⟩
        obtain ⟨b, rfl, hb⟩ := preamble_parse_ok hp
        rcases hb with ⟨rfl, rfl⟩ | ⟨rfl, rfl⟩ | ⟨rfl, rfl⟩ | ⟨rfl, rfl⟩ | ⟨rfl, rfl⟩ | ⟨rfl, rfl⟩ | ⟨rfl, rfl⟩ |
          ⟨rfl, rfl⟩ <;> simp_all
      · exact absurd hw (he w)
    cases p with
    | tenderbakePreendorsement => exact h.autoSign hf (hend (by simp))
    | tenderbakeEndorsement => exact h.autoSign hf (hend (by simp))
    | endorsement => exact h.autoSign hf (hend (by simp))
    | tenderbakeBlock => exact h.autoSign hf (hblk (by simp))
    | block => exact h.autoSign hf (hblk (by simp))
    | operation => exact h.handleDelegation hf _ _ _ _ _
    | _ => exact h.fail _

/-! ### Uploads -/

omit hf in
theorem SwapBuf.writeFlash_steady {fa : WriteFate} (ha : ∀ j, fa ≠ .fails j) (bs : Bytes) (b : SwapBuf) :
    b.writeFlash fa bs = b.writeFlash .done bs ∨ ((b.writeFlash fa bs).2 = .powerLoss ∧ ∃ l, fa = .powerLoss l) := by
  cases fa with
  | done => exact .inl rfl
  | fails j => exact absurd rfl (ha j)
  | powerLoss l =>
    unfold SwapBuf.writeFlash
    split
    · exact .inl rfl
    · exact .inr ⟨rfl, l, rfl⟩

omit hf in
theorem SwapBuf.write_steady {fc fa : WriteFate} (hc : ∀ j, fc ≠ .fails j) (ha : ∀ j, fa ≠ .fails j) (bs : Bytes)
    (b : SwapBuf) : b.write fc fa bs = b.write .done .done bs ∨
      ((b.write fc fa bs).2 = .powerLoss ∧ ((∃ l, fc = .powerLoss l) ∨ ∃ l, fa = .powerLoss l)) := by
  unfold SwapBuf.write
  split
  · rcases SwapBuf.writeFlash_steady ha bs b with h | ⟨h, h'⟩
    · exact .inl h
    · exact .inr ⟨h, .inr h'⟩
  split
  · split
    · exact .inl rfl
    · cases fc with
      | done =>
        rcases SwapBuf.writeFlash_steady ha bs _ with h | ⟨h, h'⟩
        · exact .inl h
        · exact .inr ⟨h, .inr h'⟩
      | fails j => exact absurd rfl (hc j)
      | powerLoss l => exact .inr ⟨rfl, .inl ⟨l, rfl⟩⟩
  · exact .inl rfl

omit hf in
/-- Unless the power fails, an upload packet is handled as if flash writes always complete. -/
theorem Upl.upload_steady {fc fa : WriteFate} (hc : ∀ j, fc ≠ .fails j) (ha : ∀ j, fa ≠ .fails j) (acc : Accessor)
    (p1 p2 : UInt8) (pl : Option Bytes) (u : Upl) :
    u.upload fc fa acc p1 p2 pl = u.upload .done .done acc p1 p2 pl ∨
      ((u.upload fc fa acc p1 p2 pl).2 = .powerLoss ∧ ((∃ l, fc = .powerLoss l) ∨ ∃ l, fa = .powerLoss l)) := by
  unfold Upl.upload
  split
  · exact .inl rfl
  · split
    · dsimp only
      rcases SwapBuf.write_steady hc ha [p2] u.buf.reset with h | ⟨h, h'⟩
      · rw [h]
        split
        · exact .inl rfl
        · cases pl with
          | none => exact .inl rfl
          | some pl =>
            rcases SwapBuf.write_steady hc ha pl (u.buf.reset.write .done .done [p2]).1 with h | ⟨h, h'⟩
            · dsimp only
              rw [h]
              exact .inl rfl
            · right
              refine ⟨?_, h'⟩
              dsimp only
              rw [h]
              rfl
      · right
        refine ⟨?_, h'⟩
        rw [h]
        rfl
    · split
      · split
        · exact .inl rfl
        · cases pl with
          | none => exact .inl rfl
          | some pl =>
            rcases SwapBuf.write_steady hc ha pl u.buf with h | ⟨h, h'⟩
            · dsimp only
              rw [h]
              exact .inl rfl
            · right
              refine ⟨?_, h'⟩
              dsimp only
              rw [h]
              rfl
      · split
        · split
          · exact .inl rfl
          · cases pl with
            | none => exact .inl rfl
            | some pl =>
              rcases SwapBuf.write_steady hc ha pl u.buf with h | ⟨h, h'⟩
              · dsimp only
                rw [h]
                exact .inl rfl
              · right
                refine ⟨?_, h'⟩
                dsimp only
                rw [h]
                rfl
        · exact .inl rfl

/-- A signing command: if `finish` is safe for what the host uploaded, the packet is handled safely. -/
theorem Dev.Solid.cmdUpload (h : s.Solid) {o : Option (Session Accessor)} (hi : UplInv s.upl o) (k : Packet Accessor)
    (hp : k.payload.length ≤ 255) {finish : UInt8 → Bytes → Bytes → MemRef → Dev → Res}
    (hfin : ∀ q2 first data ref (s' : Dev), s'.Solid → (feed o k).2 = some (q2, first, data) →
      (finish q2 first data ref s').Safe env P) :
    (s.cmdUpload env k.family k.p1 k.p2 (some k.payload) finish).Safe env P := by
  have hs : ∀ u, Dev.Solid { s with upl := u } := fun u => ⟨h.1, h.2, h.3, h.4⟩
  rcases Upl.upload_steady hf.copy hf.append k.family k.p1 k.p2 (some k.payload) s.upl with he | ⟨he, hcut⟩
  · have hfed := Upl.upload_fed hi k hp
    rw [← he] at hfed
    unfold Dev.cmdUpload
    dsimp only
    cases hx : (feed o k).2 with
    | none =>
      obtain ⟨hr, _⟩ := hfed.none hx
      split at hr
      · rw [hr]
        exact (hs _).ok _
      · obtain ⟨e, hr, _⟩ := hr
        rw [hr]
        exact (hs _).fail _
    | some x =>
      obtain ⟨q2, first, data⟩ := x
      obtain ⟨ref, hr, _⟩ := hfed.some _ _ _ hx
      rw [hr]
      have := hfin q2 first data ref _ (hs (s.upl.upload env.copyF env.appendF k.family k.p1 k.p2
        (some k.payload)).1) hx
      exact ⟨this.1, ⟨this.2.1, this.2.2, this.2.3, this.2.4⟩⟩
  · unfold Dev.cmdUpload
    dsimp only
    rw [he]
    refine ⟨fun f hf => ?_, hs _⟩
    cases hf
    refine .inl ⟨rfl, ?_⟩
    rcases hcut with h | h
    · exact .inr (.inr (.inr (.inr (.inl h))))
    · exact .inr (.inr (.inr (.inr (.inr h))))

/-- Every command. -/
theorem Dev.Solid.exec (h : s.Solid) {o : Option (Session Accessor)} (hi : UplInv s.upl o) (cfg : Config) (c : Cmd)
    (p1 p2 : UInt8) (pl : Bytes) (hp : pl.length ≤ 255) :
    (s.exec cfg env c p1 p2 (some pl)).Safe env (c.accessor = some .baking ∧ ∃ q2 first data,
      (feed o ⟨.baking, p1, p2, pl⟩).2 = some (q2, first, data) ∧ ShortFitness data) := by
  cases c with
  | reset =>
    simp only [Dev.exec, Dev.cmdReset]
    split
    · exact h.fail _
    · exact h.resetHwm hf _
  | queryMain =>
    simp only [Dev.exec, Dev.cmdQueryMain]
    have := h.main.read
    split <;> first | exact h.ok _ | exact h.fail _ | contradiction
  | queryAll =>
    have hr : s.allHwm ≠ .panic := by
      have h1 := h.main.read
      have h2 := h.test.read
      have h3 := h.chain.read
      unfold Dev.allHwm
      split
      · split
        · split
          · simp
          · exact h3
        · exact h2
      · exact h1
    simp only [Dev.exec, Dev.cmdQueryAll]
    split <;> first | exact h.ok _ | exact h.fail _ | contradiction
  | authorize => exact h.cmdAuthorize hf _ _ _
  | deauthorize => exact h.cmdDeauthorize hf _
  | queryAuth => exact h.cmdQueryAuth hf _ _
  | setup => exact h.cmdSetup hf p2 (some pl)
  | hmac => exact h.cmdHmac p2 (some pl)
  | bakerSign hh =>
    refine h.cmdUpload hf hi ⟨.baking, p1, p2, pl⟩ hp fun q2 first data ref s' h' hx => ?_
    have hb := h'.bakerSign hf hh q2 first data ref
    refine ⟨fun f hfa => ?_, hb.2⟩
    rcases hb.1 f hfa with h | ⟨h, hsf⟩
    · exact .inl h
    · exact .inr ⟨h, rfl, q2, first, data, hx, hsf⟩
  | sign hh =>
    exact h.cmdUpload hf hi ⟨.sign, p1, p2, pl⟩ hp fun q2 first data ref s' h' hx => h'.startSign hf hh _ _ _ _
  | legacyVersion => exact h.ok _
  | git => exact h.ok _
  | version => exact h.ok _
  | getKey => exact h.cmdGetKey _ _
  | promptAddr => exact h.cmdAddr hf _ _ _
  | getAddr => exact h.cmdAddr hf _ _ _

end

/-! ### Events -/

/-- What is seen: an abort only if `P`, a power loss only if the power fails; the records are whole. -/
structure Ends (env : Env) (P : Prop) (r : Dev × Output) : Prop where
  fault : ∀ f, r.2.fault = some f → (f = .powerLoss ∧ env.Cuts) ∨ (f = .panic ∧ P)
  solid : r.1.Solid

theorem Dev.Solid.quiet {env : Env} {P : Prop} {s : Dev} (h : s.Solid) : Ends env P (s, .quiet) := ⟨nofun, h⟩

theorem Res.Safe.deliver {env : Env} {P : Prop} {r : Res} (h : r.Safe env P) : Ends env P r.deliver := by
  obtain ⟨st, out, sig⟩ := r
  have hs := h.solid
  cases out with
  | fault f =>
    refine ⟨fun f' hf => ?_, ⟨hs.1, hs.2, hs.3, hs.4⟩⟩
    cases hf
    exact h.fault f rfl
  | _ => exact ⟨nofun, hs⟩

section
variable {env : Env} {P : Prop} {s : Dev}

theorem Dev.Solid.reject (h : s.Solid) : Ends env P s.reject := by
  unfold Dev.reject
  dsimp only
  split
  · exact ⟨nofun, ⟨h.1, h.2, h.3, h.4⟩⟩
  · rename_i v _
    refine ⟨nofun, ?_⟩
    cases v <;> exact ⟨h.1, h.2, h.3, h.4⟩

theorem Dev.Solid.acceptError (h : s.Solid) : Ends env P s.acceptError := by
  unfold Dev.acceptError
  dsimp only
  split <;> exact ⟨nofun, ⟨h.1, h.2, h.3, h.4⟩⟩

theorem Dev.Solid.onError (h : s.Solid) {c : Bool} {f : XError → XError} : Ends env P (s.onError c f) := by
  unfold Dev.onError
  split
  · exact h.acceptError
  · exact ⟨nofun, ⟨h.1, h.2, h.3, h.4⟩⟩

theorem Dev.Solid.redraw (h : s.Solid) {u : Upd} (hu : u.Calm) : Ends env P (s.redraw u) := by
  cases u with
  | shown z => exact ⟨nofun, ⟨h.1, h.2, h.3, h.4⟩⟩
  | failed z => exact ⟨nofun, ⟨h.1, h.2, h.3, h.4⟩⟩
  | rejected z =>
    have hs : Dev.Solid { s with zui := z } := ⟨h.1, h.2, h.3, h.4⟩
    have hr := hs.reject (env := env) (P := P)
    exact ⟨hr.1, ⟨hr.2.1, hr.2.2, hr.2.3, hr.2.4⟩⟩
  | panic => exact absurd rfl hu.1
  | hang => exact absurd rfl hu.2

variable {ev : Event} (hf : Firm env ev)
include hf

theorem Dev.Solid.approve (h : s.Solid) (hv : s.Pending View.Firm) (ho : s.Ok) : Ends env P (s.approve env) := by
  unfold Dev.approve
  dsimp only
  split
  · exact ⟨nofun, ⟨h.1, h.2, h.3, h.4⟩⟩
  · rename_i v hw
    have hs : Dev.Solid { s with zui := { s.zui with screen := .idle } } := ⟨h.1, h.2, h.3, h.4⟩
    have hr := (hs.accept (P := P) hf (hv v hw) (ho v hw)).deliver
    exact ⟨hr.1, ⟨hr.2.1, hr.2.2, hr.2.3, hr.2.4⟩⟩

theorem Dev.viewer_firm (hv : s.Pending View.Firm) : ∀ w, s.viewer env = some w → w.Calm ∧ w.Short := by
  intro w hw
  unfold Dev.viewer at hw
  simp only [Option.map_eq_some_iff] at hw
  obtain ⟨v, hv', rfl⟩ := hw
  have := hv v hv'
  exact ⟨View.viewer_calm hf.sized this _, View.viewer_short hf.sized this.tidy _⟩

theorem Dev.Solid.pressBoth (h : s.Solid) (hv : s.Pending View.Firm) (ho : s.Ok) : Ends env P (s.pressBoth env) := by
  unfold Dev.pressBoth
  dsimp only
  have key : ∀ r : Dev × Output, Ends env P r → r.1.Pending View.Firm →
      Ends env P (if r.1.running ∧ r.1.zui.jumps then
        ((r.1.redraw (r.1.zui.expertJump (r.1.viewer env))).1,
          ⟨r.2.reply <|> (r.1.redraw (r.1.zui.expertJump (r.1.viewer env))).2.reply, r.2.sig,
            r.2.fault <|> (r.1.redraw (r.1.zui.expertJump (r.1.viewer env))).2.fault⟩) else r) := by
    intro r hr hp
    split
    · have hj := hr.2.redraw (env := env) (P := P) (u := r.1.zui.expertJump (r.1.viewer env))
        (reviewUpdate_calm (Dev.viewer_firm hf hp) _)
      refine ⟨fun f hfa => ?_, hj.2⟩
      cases hr2 : r.2.fault with
      | none =>
        simp only [hr2] at hfa
        exact hj.1 f hfa
      | some f' =>
        simp only [hr2] at hfa
        cases hfa
        exact hr.1 f hr2
    · exact hr
  split
  · exact key _ (h.approve hf hv ho) fun w hw => (by rw [Dev.approve_view] at hw; cases hw)
  · exact key _ h.reject fun w hw => (by rw [Dev.reject_view] at hw; cases hw)
  · exact key _ h.quiet hv

end

/-! ### Histories -/

/-- A packet of this event completes the upload of a block with a too short fitness to a baking signature command. -/
def AbortsOn (cfg : Config) (o : Option (Session Accessor)) (ev : Event) : Prop :=
  ∃ k q2 first data, ev.packet cfg.build = some k ∧ k.family = .baking ∧
    (feed o k).2 = some (q2, first, data) ∧ ShortFitness data

/-- What holds along a history; `o` is the upload session of the host. -/
structure Dev.Sturdy (s : Dev) (o : Option (Session Accessor)) : Prop where
  solid : s.Solid
  view : s.Pending View.Firm
  ok : s.Ok
  flash : s.upl.buf.flash.length = uploadCapacity
  session : s.running = true → UplInv s.upl o

theorem Dev.Sturdy.ends {cfg : Config} {env : Env} {ev : Event} {s : Dev} {o : Option (Session Accessor)}
    (hf : Firm env ev) (h : s.Sturdy o) : Ends env (AbortsOn cfg o ev) (s.step cfg env ev) := by
  have hq := h.solid.quiet (env := env) (P := AbortsOn cfg o ev)
  cases ev with
  | relaunch => exact ⟨nofun, ⟨h.1.1.relaunch, h.1.2.relaunch, h.1.3.relaunch, h.1.4.relaunch⟩⟩
  | apdu buf rx =>
    by_cases hrun : s.running = true
    · by_cases hx : ∃ c, Received cfg s (.apdu buf rx) buf rx c
      · obtain ⟨c, hrec⟩ := hx
        rw [hrec.step, apduPayload_full hf.full]
        have hl := slice_length_le buf 5 (buf.getD 4 0).toNat
        have := (buf.getD 4 0).toNat_lt
        have he := (h.solid.exec hf (h.session hrun) cfg c (buf.getD 2 0) (buf.getD 3 0)
          (slice buf 5 (buf.getD 4 0).toNat) (by omega)).deliver
        refine ⟨fun f hfa => ?_, he.2⟩
        rcases he.1 f hfa with h | ⟨h, hacc, q2, first, data, h1, h2⟩
        · exact .inl h
        · refine .inr ⟨h, _, q2, first, data, ?_, rfl, h1, h2⟩
          rw [hrec.packet, hacc]
          rfl
      · have hd : ∃ e, s.dispatch cfg env buf rx = s.fail e := by
          unfold Dev.dispatch
          split
          · exact ⟨_, rfl⟩
          rename_i hlen
          split
          · exact ⟨_, rfl⟩
          rename_i hcla
          split
          · exact ⟨_, rfl⟩
          · rename_i c hc
            refine absurd ⟨c, rfl, hrun, by omega, ?_, buf.getD 1 0, ?_, hc⟩ hx
            · simp only [ne_eq, Decidable.not_not] at hcla
              rw [List.getD_eq_getElem?_getD, List.getElem?_eq_getElem (by omega)] at hcla
              rw [List.getElem?_eq_getElem (by omega)]
              simpa using hcla
            · rw [List.getD_eq_getElem?_getD, List.getElem?_eq_getElem (by omega)]
              rfl
        obtain ⟨e, hd⟩ := hd
        simp only [Dev.step, hrun, if_true, hd]
        exact (h.solid.fail e).deliver
    · simp only [Dev.step, hrun, Bool.false_eq_true, if_false]
      exact hq
  | left =>
    simp only [Dev.step]
    split
    · split
      · exact h.solid.redraw (Zui.goLeft_calm (Dev.viewer_firm hf h.view) _)
      · exact h.solid.onError
      · exact hq
    · exact hq
  | right =>
    simp only [Dev.step]
    split
    · split
      · exact h.solid.redraw (Zui.goRight_calm (Dev.viewer_firm hf h.view) _)
      · exact h.solid.onError
      · exact hq
    · exact hq
  | both =>
    simp only [Dev.step]
    split
    · split
      · exact h.solid.pressBoth hf h.view h.ok
      · exact h.solid.onError
      · exact hq
    · exact hq
  | expert =>
    simp only [Dev.step]
    split
    · exact ⟨nofun, ⟨h.1.1, h.1.2, h.1.3, h.1.4⟩⟩
    · exact hq

/-- A device that is off only reacts to being started. -/
theorem Dev.step_off {cfg : Config} {env : Env} {ev : Event} {s : Dev} (hrun : s.running ≠ true) (hev : ev ≠ .relaunch) :
    s.step cfg env ev = (s, .quiet) := by
  cases ev <;> first | exact absurd rfl hev | simp [Dev.step, hrun]

theorem Dev.Sturdy.step {cfg : Config} {env : Env} {ev : Event} {s : Dev} {o : Option (Session Accessor)}
    (hf : Firm env ev) (h : s.Sturdy o) (out : Output) :
    (s.step cfg env ev).1.Sturdy (sessionStep cfg o ⟨s, env, ev, out⟩) := by
  have hv := h.view.step (cfg := cfg) (env := env) (ev := ev) fun _ _ _ _ _ _ _ ho => ho.firm hf.sized
  have hok : (s.step cfg env ev).1.Ok := h.ok.step
  have hs := (h.ends (cfg := cfg) hf).2
  have hu := s.step_upl cfg env hf.full
  unfold sessionStep
  dsimp only
  by_cases hev : ev = .relaunch
  · rw [if_pos hev] at hu ⊢
    exact ⟨hs, hv, hok, by rw [hu]; exact h.flash, fun _ => by rw [hu]; exact UplInv.init h.flash⟩
  rw [if_neg hev] at hu ⊢
  by_cases hrun : s.running = true
  · rw [if_pos hrun] at hu ⊢
    have hi := h.session hrun
    cases hp : ev.packet cfg.build with
    | none =>
      rw [hp] at hu
      exact ⟨hs, hv, hok, by rw [hu]; exact h.flash, fun _ => by rw [hu]; exact hi⟩
    | some k =>
      rw [hp] at hu
      dsimp only at hu ⊢
      rcases Upl.upload_steady hf.copy hf.append k.family k.p1 k.p2 (some k.payload) s.upl with he | ⟨he, -⟩
      · rw [he] at hu
        have := Upl.released_fed (Upl.upload_fed hi k (Event.packet_length hp))
        rw [← hu] at this
        exact ⟨hs, hv, hok, this.flashLen, fun _ => this⟩
      · refine ⟨hs, hv, hok, ?_, fun hr => ?_⟩
        · rw [hu]
          have := (Upl.packet_spec hi env.copyF env.appendF k).sizes.2.2
          unfold Upl.packet at this
          revert he this
          unfold Upl.released
          cases s.upl.upload env.copyF env.appendF k.family k.p1 k.p2 (some k.payload) with
          | mk u r =>
            intro he this
            cases he
            exact this
        · exfalso
          obtain ⟨buf, rx, c, hrec, hacc, h1, h2, h3⟩ := Event.packet_received hrun hp
          have hfull := hf.full
          rw [hrec.ev] at hfull
          rw [hrec.step, apduPayload_full hfull, ← h1, ← h2, ← h3] at hr
          cases c with
          | bakerSign hh =>
            simp only [Cmd.accessor, Option.some.injEq] at hacc
            simp only [Dev.exec, Dev.cmdUpload, hacc, he] at hr
            cases hr
          | sign hh =>
            simp only [Cmd.accessor, Option.some.injEq] at hacc
            simp only [Dev.exec, Dev.cmdUpload, hacc, he] at hr
            cases hr
          | _ => cases hacc
  · rw [if_neg hrun, Dev.step_off hrun hev]
    exact h

theorem Dev.Sturdy.run {cfg : Config} {es : List (Env × Event)} {s : Dev} {o : Option (Session Accessor)}
    (hf : ∀ e ∈ es, Firm e.1 e.2) (h : s.Sturdy o) :
    (s.run cfg es).1.Sturdy ((s.trace cfg es).foldl (sessionStep cfg) o) := by
  induction es generalizing s o with
  | nil => exact h
  | cons x xs ih =>
    exact ih (fun e he => hf e (by simp [he])) (h.step (hf x (by simp)) _)

theorem Dev.Sturdy.factory {new : NewDevice} (h : new.upload.length = uploadCapacity) : (Dev.factory new).Sturdy none :=
  ⟨⟨.fresh (by decide), .fresh (by decide), .fresh (by decide), .fresh (by decide)⟩, Dev.Pending.factory _ _,
    Dev.Ok.factory _, h, fun _ => UplInv.init h⟩

/-! ### C30 -/

/-- C30, except for one message: along every history in which the outside world behaves (`Firm`), the app only ever
stops because the power fails during a flash write, or because the host completes the upload of a block with a too
short Tenderbake fitness to a baking signature command. In particular no other APDU, in whatever state, and no button
press makes it abort or loop.

Missing for the full claim: that message does abort the app (`C30_short_fitness_aborts`). -/
theorem C30_never_aborts_partial (cfg : Config) (new : NewDevice) (hu : new.upload.length = uploadCapacity)
    (es : List (Env × Event)) (hf : ∀ e ∈ es, Firm e.1 e.2) (past rest : List Moment) (m : Moment)
    (h : (Dev.factory new).trace cfg es = past ++ m :: rest) (f : Fault) (hfault : m.out.fault = some f) :
    (f = .powerLoss ∧ m.env.Cuts) ∨ (f = .panic ∧ AbortsOn cfg (sessionIn cfg past) m.ev) := by
  obtain ⟨ea, eb, rfl, _, rfl, hst, hout, _⟩ := Dev.trace_split h
  have hs := (Dev.Sturdy.factory hu).run (cfg := cfg) (es := ea) fun e he => hf e (by simp [he])
  have := hs.ends (cfg := cfg) (hf (m.env, m.ev) (by simp))
  rw [hst] at hout
  rw [hout] at hfault
  exact this.1 f hfault

/-- C30 for the wallet build: it only ever stops because the power fails during a flash write. -/
theorem C30_wallet_never_aborts (cfg : Config) (hw : cfg.build = .wallet) (new : NewDevice)
    (hu : new.upload.length = uploadCapacity) (es : List (Env × Event)) (hf : ∀ e ∈ es, Firm e.1 e.2)
    (past rest : List Moment) (m : Moment) (h : (Dev.factory new).trace cfg es = past ++ m :: rest) (f : Fault)
    (hfault : m.out.fault = some f) : f = .powerLoss ∧ m.env.Cuts := by
  rcases C30_never_aborts_partial cfg new hu es hf past rest m h f hfault with h | ⟨_, k, _, _, _, hk, hb, _⟩
  · exact h
  · exfalso
    cases hev : m.ev with
    | apdu buf rx =>
      rw [hev] at hk
      simp only [Event.packet, hw] at hk
      split at hk
      · simp only [Option.map_eq_some_iff, Option.bind_eq_some_iff] at hk
        obtain ⟨a, ⟨ins, _, ha⟩, rfl⟩ := hk
        simp only [familyOf] at ha
        simp only at hb
        split at ha
        · rw [hb] at ha
          cases ha
        · cases ha
      · cases hk
    | _ => rw [hev] at hk; cases hk

theorem Dev.bakerSign_aborts {env : Env} {s : Dev} {hh : Bool} {q2 : UInt8} {first data digest b : Bytes}
    {ref : MemRef} {key : PathAndCurve} (hshort : ShortFitness data) (hkey : s.storedKey = some key)
    (hc : Curve.ofByte q2 = some key.curve) (hp : Path.read bip32MaxLength first = .ok key.path)
    (hd : env.cr.blake2b 32 data = some digest) (hb : s.main.read = .ok b) :
    s.bakerSign env hh q2 first data ref = s.fault .panic := by
  obtain ⟨hm, ha⟩ := shortFitness_iff.mp hshort
  have hk : ∀ (e e' : ApduError) (k : PathAndCurve → Res), s.withKey e e' k = k key := by
    intro e e' k
    unfold Dev.storedKey at hkey
    unfold Dev.withKey Dev.withRead
    cases hr : s.key.read with
    | ok b =>
      rw [hr] at hkey
      dsimp only at hkey ⊢
      split at hkey
      · rename_i ht
        rw [ht, hkey]
      · cases hkey
    | _ => rw [hr] at hkey; cases hkey
  obtain ⟨rem, p, hpre, hblk⟩ : ∃ rem p, Preamble.parse data = .ok (rem, p) ∧ (p = .block ∨ p = .tenderbakeBlock) := by
    cases data with
    | nil => simp at hm
    | cons c t =>
      simp only [List.getElem?_cons_zero, Option.some.injEq] at hm
      rcases hm with rfl | rfl
      · exact ⟨t, _, rfl, .inl rfl⟩
      · exact ⟨t, _, rfl, .inr rfl⟩
  have hdec : ∀ w, blockDecide p rem w = .error .panic := fun w => by
    rw [blockDecide_eq hpre hblk, if_pos ha]
  have hauto : s.autoSign env hh digest data (blockDecide p rem) = s.fault .panic := by
    simp only [Dev.autoSign, Dev.withRead, hb, hdec]
  unfold Dev.bakerSign Dev.withPath
  simp only [hc, hp, hk, ne_eq, not_true_eq_false, if_false, hd, hpre]
  rcases hblk with rfl | rfl <;> exact hauto

/-- C30 fails for the baking build: along every history, whenever the host completes the upload of a block with a too
short fitness and names the authorized key, and a watermark has been set, the app aborts instead of replying. -/
theorem C30_short_fitness_aborts (cfg : Config) (new : NewDevice) (hu : new.upload.length = uploadCapacity)
    (es : List (Env × Event)) (hg : ∀ e ∈ es, Good e.1 e.2) (past rest : List Moment) (m : Moment)
    (h : (Dev.factory new).trace cfg es = past ++ m :: rest) (hrun : m.st.running = true)
    (k : Packet Accessor) (hk : m.ev.packet cfg.build = some k) (hfam : k.family = .baking)
    (q2 : UInt8) (first data : Bytes) (hfeed : (feed (sessionIn cfg past) k).2 = some (q2, first, data))
    (hshort : ShortFitness data) (key : PathAndCurve) (hkey : m.st.storedKey = some key)
    (hc : Curve.ofByte q2 = some key.curve) (hp : Path.read bip32MaxLength first = .ok key.path)
    (digest : Bytes) (hd : m.env.cr.blake2b 32 data = some digest) (b : Bytes) (hb : m.st.main.read = .ok b) :
    m.out = ⟨none, none, some .panic⟩ := by
  obtain ⟨ea, eb, rfl, _, rfl, hst, hout, _⟩ := Dev.trace_split h
  have hi := factory_session (cfg := cfg) hu (es := ea) fun e he => hg e (by simp [he])
  rw [← hst] at hi
  have hgm := hg (m.env, m.ev) (by simp)
  obtain ⟨u, ref, hcomp⟩ := Completes.of_feed hi (Event.packet_length hk) hgm.copy hgm.append hfeed
  obtain ⟨buf, rx, c, hrec, hacc, h1, h2, h3⟩ := Event.packet_received hrun hk
  have hfull := hgm.full
  rw [hrec.ev] at hfull
  rw [hout, hrec.step, apduPayload_full hfull, ← h1, ← h2, ← h3]
  have he := hcomp.eq
  cases c with
  | bakerSign hh =>
    rw [hfam] at he
    simp only [Dev.exec, Dev.cmdUpload, he]
    have ha : Dev.bakerSign m.env hh q2 first data ref { m.st with upl := u } = _ :=
      Dev.bakerSign_aborts hshort hkey hc hp hd hb
    rw [ha]
    rfl
  | _ => simp [Cmd.accessor, hfam] at hacc

namespace Demo

theorem fine_firm {ev : Event} (h : ev.Full) : Firm fine ev :=
  ⟨crypto_sized, trivial, trivial, trivial, trivial, nofun, nofun, h⟩

theorem cut_firm {ev : Event} (h : ev.Full) : Firm (cut .unchanged) ev :=
  ⟨crypto_sized, trivial, trivial, trivial, trivial, nofun, nofun, h⟩

theorem firm_all {es : List (Env × Event)} (h : ∀ e ∈ es, (e.1 = fine ∨ e.1 = cut .unchanged) ∧ e.2.Full) :
    ∀ e ∈ es, Firm e.1 e.2 := by
  rintro ⟨env, ev⟩ he
  obtain ⟨h1 | h1, h2⟩ := h _ he
  · cases h1; exact fine_firm h2
  · cases h1; exact cut_firm h2

/-- A history with both ways of stopping: a setup, a block signature cut by a power loss, a restart, a delegation
reviewed in expert mode, and the block that aborts the app. -/
def crashes : List (Env × Event) :=
  setup 5 ++ signCut .unchanged (tbBlock 9 0) ++ ok [.expert] ++ sign delegation ++
    ok [.right, .left, .both, .both] ++ sign shortBlock

theorem crashes_firm : ∀ e ∈ crashes, Firm e.1 e.2 := by
  have full : ∀ e ∈ crashes, e.2.Full := by decide +kernel
  refine firm_all fun e he => ⟨?_, full e he⟩
  simp only [crashes, setup, signCut, sign, ok, List.mem_append, List.mem_map, List.mem_cons, List.not_mem_nil,
    or_false] at he
  rcases he with ((((⟨_, _, rfl⟩ | rfl | rfl | rfl) | ⟨_, _, rfl⟩) | ⟨_, _, rfl⟩) | ⟨_, _, rfl⟩) | ⟨_, _, rfl⟩ <;> simp

set_option maxRecDepth 100000 in
/-- The hypotheses of `C30_never_aborts_partial` with a power loss and with an abort. -/
example : (uploadCapacity = (Dev.factory ⟨.small, List.replicate uploadCapacity 0⟩).upl.buf.flash.length) ∧
    (∀ e ∈ crashes, Firm e.1 e.2) ∧
    (((Dev.factory ⟨.small, List.replicate uploadCapacity 0⟩).run bakingApp crashes).2.map (·.fault)).filterMap id =
      [.powerLoss, .panic] ∧
    ShortFitness shortBlock :=
  ⟨by decide +kernel, crashes_firm, by decide +kernel, shortFitness_iff.mpr (by decide +kernel)⟩

set_option maxRecDepth 100000 in
set_option synthInstance.maxSize 1000 in
/-- The hypotheses of `C30_short_fitness_aborts`. -/
example :
    let s0 := Dev.factory ⟨.small, List.replicate uploadCapacity 0⟩
    let es := setup 5 ++ sign shortBlock
    (∀ e ∈ es, Good e.1 e.2) ∧
    (((s0.trace bakingApp es).getLast?.map fun m => (m.st.running,
        (m.ev.packet bakingApp.build).map fun k => (k.family, k.p1, k.p2, k.payload),
        m.st.storedKey.map (·.path.length), match m.st.main.read with | .ok b => (WaterMark.decode b).level | _ => 0)) =
      some (true, some (.baking, 0x81, 0, shortBlock), some 2, 5)) ∧
    (feed (sessionIn bakingApp (s0.trace bakingApp es).dropLast) ⟨.baking, 0x81, 0, shortBlock⟩).2 =
      some (0, keyPath, shortBlock) := by
  decide +kernel

/-- The copy of the upload buffer to flash fails. -/
def badCopy : Env := { fine with copyF := .fails [] }

set_option maxRecDepth 100000 in
/-- Why `Firm` excludes failing writes to the upload area: in either build, an opening packet of 255 bytes whose copy to
flash fails is refused but stays open, with a key length that was never stored, and the closing packet then aborts the
app. -/
theorem C30_failed_copy_aborts :
    let es := [(badCopy, apdu 0x04 0 0 (List.replicate 255 7)), (fine, apdu 0x04 0x81 0 [])]
    ((Dev.factory ⟨.small, List.replicate uploadCapacity 0⟩).run walletApp es).2 =
      [⟨some [0x69, 0x84], none, none⟩, ⟨none, none, some .panic⟩] ∧
    ((Dev.factory ⟨.small, List.replicate uploadCapacity 0⟩).run bakingApp es).2 =
      [⟨some [0x69, 0x84], none, none⟩, ⟨none, none, some .panic⟩] := by
  decide +kernel

end Demo
end Tezos
