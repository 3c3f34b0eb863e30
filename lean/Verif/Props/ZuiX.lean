import Verif.ZuiX
import Verif.Calm
/-
C73 to C75: reviews on the devices with the larger display.
-/
set_option linter.unusedSimpArgs false
namespace Tezos
open Spec

/-- What the user sees: the frame around the items, or the title and the text of an item. -/
inductive SeenX where
  | please | item (title text : Bytes) | approve | reject
  deriving DecidableEq, Repr

def ZuiX.seen (z : ZuiX) : SeenX :=
  match z.step with
  | .title => .please
  | .item => .item z.key z.message
  | .approve => .approve
  | .reject => .reject

/-- Pressing buttons while one review stays pending: the final state and everything displayed so far, or `none` once the
review is no longer on the screen (approved, rejected or failed). -/
def uiRunX (v : Viewer) : ZuiX → List SeenX → List Button → Option (ZuiX × List SeenX)
  | z, log, [] => some (z, log)
  | z, log, .left :: bs =>
    match z.left (some v) with
    | .on z' => uiRunX v z' (log ++ [z'.seen]) bs
    | _ => none
  | z, log, .right :: bs =>
    match z.right (some v) with
    | .on z' => uiRunX v z' (log ++ [z'.seen]) bs
    | _ => none
  | z, log, .both :: bs => if z.action = .nothing then uiRunX v z log bs else none

/-- An item, whole. -/
def SeenX.shows (f : Field) : SeenX := .item (asciify f.title) (asciify f.text)

/-- Assumptions on a review: it announces `num` items, their texts fit the buffer, and none of them is missing. -/
structure FitsX (v : Viewer) (num : UInt8) : Prop where
  count : v.numItems = .ok num
  short : ∀ n f, v.item n = .ok f → f.text.length < 4095
  there : ∀ i < num.toNat, v.item (UInt8.ofNat i) ≠ .error .noData

theorem handleUi_short {t : Bytes} (h : t.length < 4095) (k : UInt8) : handleUi t messageSizeX k = .ok (t, 1) := by
  unfold handleUi messageSizeX
  rw [if_neg (by omega)]
  simp only [Nat.reduceSub]
  rw [if_neg (by omega)]

theorem renderItemX_ok {v : Viewer} {num : UInt8} (hv : FitsX v num) {i : Nat} {f : Field}
    (hf : v.item (UInt8.ofNat i) = .ok f) (k : Nat) :
    renderItemX v i k = .ok (asciify f.title, asciify f.text, 1) := by
  unfold renderItemX
  rw [hf, ebind_ok_left, handleUi_short (hv.short _ _ hf), ebind_ok_left]
  rfl

theorem renderItemX_error {v : Viewer} {i : Nat} {e : VErr} (hf : v.item (UInt8.ofNat i) = .error e) (k : Nat) :
    renderItemX v i k = .error e := by
  unfold renderItemX
  rw [hf]
  rfl

/-- The update at an item that is there. -/
theorem reviewUpdateX_ok {v : Viewer} {num : UInt8} (hv : FitsX v num) (z : ZuiX) (hp : z.pageIdx = 0 ∨ z.pageIdx = 255)
    {f : Field} (hf : v.item (UInt8.ofNat z.itemIdx) = .ok f) :
    reviewUpdateX (some v) z = .shown { z with
      itemCount := num.toNat + 1, pageCount := 1, pageIdx := 0,
      key := asciify f.title, message := asciify f.text } := by
  have h0 := renderItemX_ok hv hf
  unfold reviewUpdateX
  simp only [hv.count]
  unfold updateLoopX
  simp only [h0]
  rcases hp with hp | hp <;> simp [hp, h0, keyWithPageX]

/-- The update at an item that fails. -/
theorem reviewUpdateX_error {v : Viewer} {num : UInt8} (hv : FitsX v num) (z : ZuiX) {e : VErr}
    (hf : v.item (UInt8.ofNat z.itemIdx) = .error e) :
    reviewUpdateX (some v) z = .ofError { z with itemCount := num.toNat + 1, pageCount := 1 } e := by
  unfold reviewUpdateX
  simp only [hv.count]
  unfold updateLoopX
  simp only [renderItemX_error hf]

/-- Where a review can be, and what was displayed before. -/
structure InvX (v : Viewer) (num : UInt8) (z : ZuiX) (log : List SeenX) : Prop where
  title : z.step = .title → z.inside = false
  item : z.step = .item → z.inside = true ∧ z.itemIdx ≤ num.toNat ∧ z.itemCount = num.toNat + 1 ∧ z.pageIdx = 0 ∧
    z.pageCount = 1 ∧ ∀ i ≤ z.itemIdx, i < num.toNat → ∃ f, v.item (UInt8.ofNat i) = .ok f ∧ SeenX.shows f ∈ log
  done : z.step = .approve ∨ z.step = .reject → z.inside = false ∧ z.itemIdx = num.toNat ∧
    z.itemCount = num.toNat + 1 ∧ z.pageIdx = 0 ∧ v.item num = .error .noData ∧
    ∀ i < num.toNat, ∃ f, v.item (UInt8.ofNat i) = .ok f ∧ SeenX.shows f ∈ log

/-- Arriving at an item after an update that ignores missing data. -/
theorem InvX.arrive {v : Viewer} {num : UInt8} (hv : FitsX v num) {z z' : ZuiX} {log : List SeenX}
    (hp : z.pageIdx = 0 ∨ z.pageIdx = 255) (hi : z.itemIdx ≤ num.toNat)
    (hz : num.toNat = z.itemIdx → z.pageIdx = 0)
    (hold : ∀ i < z.itemIdx, i < num.toNat → ∃ f, v.item (UInt8.ofNat i) = .ok f ∧ SeenX.shows f ∈ log)
    {after : ZuiX → ResX} (ha : ∀ y, after y ≠ .on z')
    (h : (reviewUpdateX (some v) z).thenItem after = .on z') : InvX v num z' (log ++ [z'.seen]) := by
  cases hf : v.item (UInt8.ofNat z.itemIdx) with
  | ok f =>
    rw [reviewUpdateX_ok hv z hp hf] at h
    simp only [UpdX.thenItem, ZuiX.enterItem, ResX.on.injEq] at h
    subst h
    refine ⟨(fun h => by cases h), fun _ => ⟨rfl, hi, rfl, rfl, rfl, ?_⟩, (fun h => by rcases h with h | h <;> cases h)⟩
    intro i h1 h2
    rcases Nat.lt_or_eq_of_le h1 with h1 | h1
    · obtain ⟨g, h3, h4⟩ := hold i h1 h2
      exact ⟨g, h3, List.mem_append_left _ h4⟩
    · subst h1
      exact ⟨f, hf, by simp [ZuiX.seen, SeenX.shows]⟩
  | error e =>
    rw [reviewUpdateX_error hv z hf] at h
    cases e with
    | panic => cases h
    | reject => cases h
    | unknown => exact absurd h (ha _)
    | noData =>
      have hn : z.itemIdx = num.toNat := by
        by_contra hne
        exact hv.there _ (by omega) hf
      simp only [UpdX.ofError, UpdX.thenItem, ZuiX.enterItem, ResX.on.injEq] at h
      subst h
      refine ⟨(fun h => by cases h), fun _ => ⟨rfl, hi, rfl, hz hn.symm, rfl, ?_⟩,
        (fun h => by rcases h with h | h <;> cases h)⟩
      intro i h1 h2
      obtain ⟨g, h3, h4⟩ := hold i (by simp only at h1; omega) h2
      exact ⟨g, h3, List.mem_append_left _ h4⟩

theorem InvX.loopStart {v : Viewer} {num : UInt8} (hv : FitsX v num) {z z' : ZuiX} {log : List SeenX}
    (hz : InvX v num z log) (hs : z.step = .title ∨ z.step = .item) (h : z.loopStart (some v) = .on z') :
    InvX v num z' (log ++ [z'.seen]) := by
  unfold ZuiX.loopStart at h
  rcases hs with hs | hs
  · rw [hz.title hs] at h
    simp only [Bool.false_eq_true, if_false] at h
    exact InvX.arrive hv (.inl rfl) (by simp [ZuiX.pagingInit]) (fun _ => rfl)
      (fun i hi => absurd hi (by simp [ZuiX.pagingInit])) (by simp) h
  · obtain ⟨h1, h2, h3, h4, h5, h6⟩ := hz.item hs
    rw [h1] at h
    simp only [if_true] at h
    split at h
    · rename_i hc
      have hpos : 0 < z.itemIdx := by simpa [ZuiX.canDecrease, h4] using hc
      have hd : z.pagingDecrease = { z with itemIdx := z.itemIdx - 1, pageIdx := 255 } := by
        simp [ZuiX.pagingDecrease, h4, hpos]
      rw [hd] at h
      exact InvX.arrive hv (.inr rfl) (by simp only; omega) (by simp only; omega)
        (fun i hi hn => h6 i (by simp only at hi; omega) hn) (by simp) h
    · cases h
      exact ⟨fun _ => rfl, (by simp), by simp⟩

theorem InvX.loopEnd {v : Viewer} {num : UInt8} (hv : FitsX v num) {z z' : ZuiX} {log : List SeenX}
    (hz : InvX v num z log) (hs : z.step = .item ∨ z.step = .approve) (h : z.loopEnd (some v) = .on z') :
    InvX v num z' (log ++ [z'.seen]) := by
  unfold ZuiX.loopEnd at h
  rcases hs with hs | hs
  · obtain ⟨h1, h2, h3, h4, h5, h6⟩ := hz.item hs
    rw [h1] at h
    simp only [if_true] at h
    obtain ⟨j, hj, hj', hj2⟩ : ∃ j, z.pagingIncrease = { z with itemIdx := j } ∧ j ≤ num.toNat ∧
        (j = z.itemIdx ∧ j = num.toNat ∨ j = z.itemIdx + 1) := by
      by_cases hlt : z.itemIdx < num.toNat
      · refine ⟨z.itemIdx + 1, ?_, by omega, .inr rfl⟩
        cases z
        simp only at h3 h4 h5 hlt
        simp [ZuiX.pagingIncrease, h3, h4, h5, hlt]
      · refine ⟨z.itemIdx, ?_, by omega, .inl ⟨rfl, by omega⟩⟩
        cases z
        simp only at h3 h4 h5 hlt
        simp [ZuiX.pagingIncrease, h3, h4, h5, hlt]
    rw [hj] at h
    cases hf : v.item (UInt8.ofNat j) with
    | ok f =>
      have hu := reviewUpdateX_ok hv { z with itemIdx := j } (.inl h4) hf
      simp only [hu] at h
      refine InvX.arrive hv (z := { z with itemIdx := j }) (.inl h4) hj' (fun _ => h4) ?_
        (after := ResX.lost) (by simp) (by rw [hu]; exact h)
      intro i hi hn
      exact h6 i (by simp only at hi; omega) hn
    | error e =>
      have hu := reviewUpdateX_error hv { z with itemIdx := j } hf
      simp only [hu] at h
      cases e with
      | panic => cases h
      | reject => cases h
      | unknown => cases h
      | noData =>
        have hn : j = num.toNat := by
          by_contra hne
          exact hv.there _ (by omega) hf
        simp only [UpdX.ofError, ResX.on.injEq] at h
        subst h
        refine ⟨(fun h => by cases h), (fun h => by cases h), fun _ => ⟨rfl, hn, rfl, h4, ?_, ?_⟩⟩
        · rw [hn, UInt8.ofNat_toNat] at hf
          exact hf
        · intro i hi
          obtain ⟨g, h7, h8⟩ := h6 i (by omega) hi
          exact ⟨g, h7, List.mem_append_left _ h8⟩
  · obtain ⟨h1, h2, h3, h4, h5, h6⟩ := hz.done (.inl hs)
    rw [h1] at h
    simp only [Bool.false_eq_true, if_false] at h
    by_cases hpos : 0 < z.itemIdx
    · have hd : z.pagingDecrease = { z with itemIdx := z.itemIdx - 1, pageIdx := 255 } := by
        simp [ZuiX.pagingDecrease, h4, hpos]
      rw [hd] at h
      exact InvX.arrive hv (.inr rfl) (by simp only; omega) (by simp only; omega)
        (fun i hi hn => h6 i hn) (by simp) h
    · have hd : z.pagingDecrease = z := by
        unfold ZuiX.pagingDecrease
        rw [if_neg (by omega), if_neg hpos]
      rw [hd] at h
      exact InvX.arrive hv (.inl h4) (by omega) (fun _ => h4) (fun i hi hn => h6 i hn) (by simp) h

theorem InvX.move {v : Viewer} {num : UInt8} (hv : FitsX v num) {z z' : ZuiX} {log : List SeenX}
    (hz : InvX v num z log) (h : z.right (some v) = .on z' ∨ z.left (some v) = .on z') :
    InvX v num z' (log ++ [z'.seen]) := by
  have grow : ∀ {y : ZuiX}, InvX v num y log → ∀ l, InvX v num y (log ++ l) := by
    intro y hy l
    refine ⟨hy.title, fun hs => ?_, fun hs => ?_⟩
    · obtain ⟨h1, h2, h3, h4, h5, h6⟩ := hy.item hs
      refine ⟨h1, h2, h3, h4, h5, fun i hi hn => ?_⟩
      obtain ⟨f, h7, h8⟩ := h6 i hi hn
      exact ⟨f, h7, List.mem_append_left _ h8⟩
    · obtain ⟨h1, h2, h3, h4, h5, h6⟩ := hy.done hs
      refine ⟨h1, h2, h3, h4, h5, fun i hi => ?_⟩
      obtain ⟨f, h7, h8⟩ := h6 i hi
      exact ⟨f, h7, List.mem_append_left _ h8⟩
  have other : ∀ s, z.step = .approve ∨ z.step = .reject → s = .approve ∨ s = .reject →
      InvX v num { z with step := s } log := by
    intro s hs hs'
    refine ⟨fun h => ?_, fun h => ?_, fun _ => hz.done hs⟩
    · simp only at h; rw [h] at hs'; rcases hs' with h | h <;> cases h
    · simp only at h; rw [h] at hs'; rcases hs' with h | h <;> cases h
  rcases h with h | h
  · unfold ZuiX.right at h
    split at h
    · exact hz.loopStart hv (.inl ‹_›) h
    · exact hz.loopEnd hv (.inl ‹_›) h
    · cases h; exact grow (other _ (.inl ‹_›) (.inr rfl)) _
    · cases h; exact grow hz _
  · unfold ZuiX.left at h
    split at h
    · cases h; exact grow hz _
    · exact hz.loopStart hv (.inr ‹_›) h
    · exact hz.loopEnd hv (.inr ‹_›) h
    · cases h; exact grow (other _ (.inr ‹_›) (.inl rfl)) _

theorem InvX.run {v : Viewer} {num : UInt8} (hv : FitsX v num) (bs : List Button) {z z' : ZuiX} {log log' : List SeenX}
    (hz : InvX v num z log) (h : uiRunX v z log bs = some (z', log')) : InvX v num z' log' := by
  induction bs generalizing z log with
  | nil =>
    simp only [uiRunX, Option.some.injEq, Prod.mk.injEq] at h
    obtain ⟨rfl, rfl⟩ := h
    exact hz
  | cons b bs ih =>
    cases b with
    | left =>
      simp only [uiRunX] at h
      split at h
      · rename_i y hy
        exact ih (hz.move hv (.inr hy)) h
      · cases h
    | right =>
      simp only [uiRunX] at h
      split at h
      · rename_i y hy
        exact ih (hz.move hv (.inl hy)) h
      · cases h
    | both =>
      simp only [uiRunX] at h
      split at h
      · exact ih hz h
      · cases h

/-- C73: on the devices with the larger display, in any mode: open a review that announces `num` items and press any
buttons; if pressing both buttons then approves, each announced item has been on the display, with its title and its
whole text, and the review has nothing to show past them. -/
theorem C73_approval_after_every_item {v : Viewer} {num : UInt8} (hv : FitsX v num) (z0 : ZuiX) (bs : List Button)
    {z : ZuiX} {log : List SeenX} (hrun : uiRunX v z0.showReview [.please] bs = some (z, log))
    (happ : z.action = .approve) :
    v.item num = .error .noData ∧
      ∀ i < num.toNat, ∃ f, v.item (UInt8.ofNat i) = .ok f ∧ SeenX.shows f ∈ log := by
  have h0 : InvX v num z0.showReview [.please] :=
    ⟨fun _ => rfl, (fun h => by cases h), (fun h => by rcases h with h | h <;> cases h)⟩
  have hs : z.step = .approve := by
    unfold ZuiX.action at happ
    split at happ <;> first | assumption | cases happ
  obtain ⟨-, -, -, -, h5, h6⟩ := (h0.run hv bs hrun).done (.inl hs)
  exact ⟨h5, h6⟩

/-! ### The reviews of the app -/

theorem orUnknown_there {α : Type} (x : Option α) : Never .noData (orUnknown x) := by
  cases x
  · exact Never.error (by decide)
  · exact Never.ok _

theorem base58Into_there (n : Nat) (l : Bytes) : Never .noData (base58Into n l) := by
  unfold base58Into
  split
  · exact Never.ok _
  · exact Never.error (by decide)

theorem Addr.base58_there (a : Addr) : Never .noData a.base58 := base58Into_there _ _

theorem pkhText_there (cr : Crypto) (p : Pkh) : Never .noData (pkhText cr p) :=
  (orUnknown_there _).bind fun _ _ => Addr.base58_there _

theorem contractText_there (cr : Crypto) (c : ContractID) : Never .noData (c.text cr) :=
  (orUnknown_there _).bind fun _ _ => base58Into_there _ _

theorem michelsonText_there (cr : Crypto) (m : Bytes) : Never .noData (michelsonText cr m) :=
  (orUnknown_there _).bind fun _ _ => Never.pure _

theorem keyText_there (cr : Crypto) (c : Curve) (k : Bytes) : Never .noData (keyText cr c k) :=
  (orUnknown_there _).bind fun _ _ => base58Into_there _ _

theorem branchText_there (cr : Crypto) (b : Bytes) : Never .noData (branchText cr b) :=
  (orUnknown_there _).bind fun _ _ => base58Into_there _ _

theorem proposalText_there (cr : Crypto) (b : Bytes) : Never .noData (proposalText cr b) :=
  (orUnknown_there _).bind fun _ _ => base58Into_there _ _

theorem unknownText_there (cr : Crypto) (b : Bytes) : Never .noData (unknownText cr b) :=
  (orUnknown_there _).bind fun _ _ => (orUnknown_there _).bind fun _ _ => base58Into_there _ _

theorem ChainID.alias_there (cr : Crypto) (c : ChainID) : Never .noData (c.alias cr) := by
  cases c
  · exact Never.ok _
  · exact Never.ok _
  · exact (orUnknown_there _).bind fun _ _ => base58Into_there _ _

theorem numValue_there (z : Zarith) : Never .noData (numValue z) := by
  unfold numValue
  split
  · exact Never.ok _
  · exact Never.error (by decide)

theorem numText_there (z : Zarith) : Never .noData (numText z) := (numValue_there z).bind fun _ _ => Never.pure _

theorem fpText_there (z : Zarith) : Never .noData (fpText z) :=
  (numValue_there z).bind fun _ _ => by
    unfold amountText
    split
    · exact Never.ok _
    · exact Never.error (by decide)
    · exact Never.error (by decide)

theorem field_there {t : Bytes} {x : Except VErr Bytes} (h : Never .noData x) :
    Never .noData (do return (⟨t, ← x⟩ : Field)) := h.bind fun _ _ => Never.pure _

set_option maxRecDepth 10000 in
/-- An operation has something to show for each item it counts. -/
theorem Op.item_there (cr : Crypto) (op : Op) {k : Nat} (hk : k < op.uiItems % 256) : Never .noData (op.item cr k) := by
  cases op
  case anonymous => simp [Op.uiItems] at hk
  case proposals p =>
    simp only [Op.uiItems] at hk
    simp only [Op.item, Proposals.item]
    split
    · exact Never.ok _
    · exact field_there (pkhText_there _ _)
    · exact Never.ok _
    · rw [if_pos (by omega)]
      split
      · exact Never.error (by decide)
      · exact field_there (proposalText_there _ _)
  case endorsementWithSlot e =>
    simp only [Op.uiItems] at hk
    simp only [Op.item, EndorsementWithSlot.item, endorsementItem]
    split
    · exact Never.ok _
    · exact field_there (branchText_there _ _)
    · exact Never.ok _
    · split
      · exact Never.ok _
      · exact Never.ok _
      · simp only [imp_false] at *; omega
  all_goals
    simp only [Op.uiItems] at hk
    simp only [Op.item, Transfer.item, Delegation.item, endorsementItem, Ballot.item, Reveal.item, Origination.item,
      ActivateAccount.item, failingNoopItem, unknownItem]
    split
  all_goals first
    | exact Never.ok _
    | exact field_there (pkhText_there _ _)
    | exact field_there (contractText_there _ _)
    | exact field_there (fpText_there _)
    | exact field_there (numText_there _)
    | exact field_there (michelsonText_there _ _)
    | exact field_there (keyText_there _ _ _)
    | exact field_there (proposalText_there _ _)
    | exact field_there (unknownText_there _ _)
    | (simp only [imp_false] at *; omega)
    | skip
  all_goals split
  all_goals first
    | exact Never.ok _
    | exact field_there (pkhText_there _ _)
    | exact field_there (michelsonText_there _ _)
    | skip
  all_goals split <;> first | exact Never.ok _ | exact field_there (pkhText_there _ _)

/-- The (operation, index) pairs that the search for an item can find: the count of each operation is cut to 8 bits. -/
def countedFields (ops : List Op) : List (Op × Nat) :=
  ops.flatMap fun op => (List.range (op.uiItems % 256)).map fun k => (op, k)

theorem countedFields_length (ops : List Op) :
    (countedFields ops).length = (ops.map fun op => op.uiItems % 256).sum := by
  induction ops with
  | nil => rfl
  | cons op ops ih => simp [countedFields, List.length_flatMap] at ih ⊢

theorem findOpFuel_counted (f : Nat) (i : Bytes) (ops : List Op) (idx : UInt8) (hf : i.length < f)
    (h : parseOps i = .ok ops) :
    findOpFuel f i idx = .ok (((countedFields ops)[idx.toNat]?).map fun x => (x.1, UInt8.ofNat x.2)) := by
  induction f generalizing i ops idx with
  | zero => omega
  | succ f ih =>
    unfold findOpFuel
    by_cases hne : i = []
    · subst hne
      rw [parseOps_nil] at h
      simp only [Except.ok.injEq] at h
      subst h
      simp [parseNext, countedFields]
    · cases ho : Op.fromBytes i with
      | error e => rw [parseOps_error hne ho] at h; simp at h
      | ok x =>
        obtain ⟨rem, op⟩ := x
        have hsh := Op.fromBytes_shorter ho
        rw [parseOps_cons ho] at h
        simp only [ebind_ok, ePure, Except.ok.injEq] at h
        obtain ⟨l, hl, rfl⟩ := h
        rw [parseNext_of ho]
        have hn : (UInt8.ofNat op.uiItems).toNat = op.uiItems % 256 := by
          simp only [UInt8.toNat_ofNat']
        have hall : countedFields (op :: l) =
            ((List.range (op.uiItems % 256)).map fun k => (op, k)) ++ countedFields l := rfl
        simp only [gt_iff_lt, UInt8.lt_iff_toNat_lt, hn]
        split
        · rename_i hlt
          rw [hall, List.getElem?_append_left (by simpa using hlt)]
          simp [hlt]
        · rename_i hge
          rw [ih rem l (idx - UInt8.ofNat op.uiItems) (by omega) hl, hall,
            List.getElem?_append_right (by simpa using hge)]
          have : (idx - UInt8.ofNat op.uiItems).toNat = idx.toNat - op.uiItems % 256 := by
            rw [UInt8.toNat_sub_of_le _ _ (by rw [UInt8.le_iff_toNat_le, hn]; omega), hn]
          simp [this]

theorem countedFields_lt {ops : List Op} {k : Nat} {x : Op × Nat} (h : (countedFields ops)[k]? = some x) :
    x.1 ∈ ops ∧ x.2 < x.1.uiItems % 256 := by
  have := List.mem_of_getElem? h
  simp only [countedFields, List.mem_flatMap, List.mem_map, List.mem_range] at this
  obtain ⟨op, hop, k, hk, rfl⟩ := this
  exact ⟨hop, hk⟩

/-- Item `n` of a batch of any size. -/
theorem signOpItem_counted (cr : Crypto) (branch i : Bytes) (ops : List Op) (h : parseOps i = .ok ops) (n : UInt8)
    (hn : n ≠ 0) :
    signOpItem cr branch i n = match (countedFields ops)[n.toNat - 1]? with
      | some (op, k) => op.item cr k
      | none => .error .noData := by
  have hn0 : n.toNat ≠ 0 := fun h0 => hn (UInt8.toNat_inj.mp (by simpa using h0))
  unfold signOpItem findOp
  rw [if_neg hn, findOpFuel_counted _ i ops _ (by omega) h]
  have : (n - 1).toNat = n.toNat - 1 := by
    rw [UInt8.toNat_sub_of_le _ _ (by rw [UInt8.le_iff_toNat_le]; simpa using by omega)]; rfl
  rw [this]
  simp only [ebind_ok_left]
  cases hx : (countedFields ops)[n.toNat - 1]? with
  | none => rfl
  | some x =>
    obtain ⟨op, k⟩ := x
    obtain ⟨hop, hk⟩ := countedFields_lt hx
    have : (UInt8.ofNat k).toNat = k := by simp only [UInt8.toNat_ofNat']; simp only at hk; omega
    simp [this]

theorem counted_sum (ops : List Op) :
    (ops.map fun op => op.uiItems % 256).sum % 256 = (ops.map Op.uiItems).sum % 256 := by
  induction ops with
  | nil => rfl
  | cons op ops ih => simp only [List.map_cons, List.sum_cons]; omega

/-- An item of a batch that is missing lies past all that the search can find. -/
theorem signOpItem_missing {cr : Crypto} {branch i : Bytes} {ops : List Op} (h : parseOps i = .ok ops) {n : UInt8}
    (hn : signOpItem cr branch i n = .error .noData) :
    n ≠ 0 ∧ (ops.map fun op => op.uiItems % 256).sum < n.toNat := by
  have h0 : n ≠ 0 := by
    rintro rfl
    exact field_there (branchText_there cr branch) hn
  have hpos : n.toNat ≠ 0 := fun h' => h0 (UInt8.toNat_inj.mp (by simpa using h'))
  refine ⟨h0, ?_⟩
  rw [signOpItem_counted cr branch i ops h n h0] at hn
  cases hx : (countedFields ops)[n.toNat - 1]? with
  | none =>
    rw [List.getElem?_eq_none_iff, countedFields_length] at hx
    omega
  | some x =>
    rw [hx] at hn
    exact absurd hn (Op.item_there cr x.1 (countedFields_lt hx).2)

/-- Each item that a batch announces is there. -/
theorem signOpItem_there {cr : Crypto} {branch data : Bytes} {ops : List Op} (hp : parseOps data = .ok ops) :
    ∀ i < (UInt8.ofNat (totalItems ops % 256)).toNat, signOpItem cr branch data (UInt8.ofNat i) ≠ .error .noData := by
  intro i hi hx
  have h1 := (signOpItem_missing hp hx).2
  have h2 := counted_sum ops
  simp only [UInt8.toNat_ofNat', totalItems] at hi h1
  omega

/-- C73: each review the app opens is as C73 needs it, whatever was uploaded. -/
theorem C73_reviews_fit (cfg : Config) (m : Moment) (v : View) (hs : m.env.cr.Sized) (ho : m.Opens cfg v) (cr : Crypto)
    (hcr : cr.Sized) (mem : SwapBuf) (num : UInt8) (hn : (v.viewer cr mem).numItems = .ok num) :
    FitsX (v.viewer cr mem) num := by
  refine ⟨hn, fun n f hf => by have := C37_texts_fit cfg m v hs ho cr hcr mem n f hf; omega, fun i hi => ?_⟩
  have hlt := num.toNat_lt
  have hi' : (UInt8.ofNat i).toNat = i := by simp only [UInt8.toNat_ofNat']; omega
  have inj : ∀ k < 256, UInt8.ofNat i = UInt8.ofNat k → i = k := by
    intro k hk h
    have := congrArg UInt8.toNat h
    rw [hi'] at this
    simp only [UInt8.toNat_ofNat'] at this
    omega
  cases v with
  | sign hh d r msg =>
    cases r with
    | none =>
      obtain rfl : (1 : UInt8) = num := by simpa [View.viewer] using hn
      obtain rfl : i = 0 := by simpa using hi
      exact Never.ok _
    | some r =>
      have hn : numItemsOps ((MemRef.mk r.inFlash (r.off + 32) (r.len - 32)).get mem) = .ok num := hn
      cases hp : parseOps ((MemRef.mk r.inFlash (r.off + 32) (r.len - 32)).get mem) with
      | error e => rw [numItemsOps, hp] at hn; cases hn
      | ok ops =>
        rw [C38_announced_truncated _ _ hp, Except.ok.injEq] at hn
        subst hn
        exact signOpItem_there hp i hi
  | bakingSign hh d r op msg =>
    simp only [View.viewer, Except.ok.injEq] at hn ⊢
    have hnum := congrArg UInt8.toNat hn
    simp only [UInt8.toNat_ofNat'] at hnum
    have hu : (op.reread ((MemRef.mk r.inFlash (r.off + 32) (r.len - 32)).get mem)).uiItems = op.uiItems := by
      cases op <;> rfl
    split
    · exact field_there (branchText_there _ _)
    · rename_i hne
      have hpos : i ≠ 0 := by rintro rfl; exact hne rfl
      have : (UInt8.ofNat i - 1).toNat = i - 1 := by
        rw [UInt8.toNat_sub_of_le _ _ (by rw [UInt8.le_iff_toNat_le, hi']; simpa using by omega), hi']; rfl
      rw [this]
      refine Op.item_there cr _ ?_
      rw [hu]
      omega
  | addr a _ _ =>
    obtain rfl : (1 : UInt8) = num := by simpa [View.viewer] using hn
    obtain rfl : i = 0 := by simpa using hi
    exact field_there (Addr.base58_there a)
  | authorize _ a | deauthorize a | query _ a _ =>
    obtain rfl : (2 : UInt8) = num := by simpa [View.viewer] using hn
    rcases (show i = 0 ∨ i = 1 by simp at hi; omega) with rfl | rfl
    · exact Never.ok _
    · exact field_there (Addr.base58_there a)
  | setup _ a main test chain =>
    obtain rfl : (5 : UInt8) = num := by simpa [View.viewer] using hn
    rcases (show i = 0 ∨ i = 1 ∨ i = 2 ∨ i = 3 ∨ i = 4 by simp at hi; omega) with rfl | rfl | rfl | rfl | rfl
    · exact Never.ok _
    · exact field_there (Addr.base58_there a)
    · exact field_there (ChainID.alias_there cr chain)
    · exact Never.ok _
    · exact Never.ok _

end Tezos
