import Verif.Props.ZuiX
import Verif.Props.Seen
/-
C74 and C75: batches of operations on the devices with the larger display, and that the end of a review can be reached.
-/
set_option linter.unusedSimpArgs false
namespace Tezos
open Spec

/-! ### C74: everything in a batch was read -/

/-- What the user read of one item: its title with, below it, a text that says what it must; the names of bakers may
have dots in place of characters that are not ASCII. -/
def UserReadX (h : Hashes) (screens : List SeenX) (e : String × Shown) : Prop :=
  ∃ text, e.2.Text h text ∧ SeenX.item (ascii e.1) (dotted text) ∈ screens ∧
    (dotted text = text ∨ ∃ a, e.2 = .baker a ∧ ∃ b ∈ knownBakers, text = b.name)

theorem userReadX_of_shown {h : Hashes} {screens : List SeenX} {e : String × Shown} {f : Field} (hp : Plain e)
    (hm : Matches h e f) (hs : SeenX.shows f ∈ screens) : UserReadX h screens e := by
  refine ⟨_, hm.text, ?_, ?_⟩
  · have : SeenX.shows f = .item (ascii e.1) (dotted (visible f.text)) := by
      rw [SeenX.shows, hm.title, printable_asciify hp.1, asciify_dotted]
    rwa [← this]
  · rcases Shown.printable hm.text hp.2 with h | h
    · exact .inl (printable_dotted h)
    · exact .inr h

/-- The review of a batch, in terms of its bytes. -/
theorem reviewOf_batch (cr : Crypto) (digest : Bytes) {branch : Bytes} (hb : branch.length = 32) (data : Bytes) :
    reviewOf cr digest (0x03 :: (branch ++ data)) = ⟨numItemsOps data, signOpItem cr branch data⟩ := by
  have htake : (branch ++ data).take 32 = branch := by rw [← hb]; exact List.take_left
  have hdrop : (branch ++ data).drop 32 = data := by rw [← hb]; exact List.drop_left
  simp only [reviewOf, htake, hdrop]

theorem batchReview_length (branch : Bytes) (os : List Operation) (rest : Bytes) :
    (batchReview branch os rest).length = totalItems (os.map Op.ofSpec ++ opaqueOps rest) := by
  have h1 : (os.flatMap Operation.review).length = ((os.map Op.ofSpec).map Op.uiItems).sum := by
    rw [List.length_flatMap, List.map_map]
    congr 1
    exact List.map_congr_left fun o _ => (Op.uiItems_review o).symm
  have h2 : (opaqueReview rest).length = ((opaqueOps rest).map Op.uiItems).sum := by cases rest <;> rfl
  simp only [batchReview, totalItems, List.length_cons, List.length_append, List.map_append, List.sum_append, h1, h2]
  omega

/-- The review of a batch meets the assumptions of C73. -/
theorem reviewOf_fits {cr : Crypto} (hs : cr.Sized) {digest : Bytes} (hd : digest.length = 32) {branch : Bytes}
    (hb : branch.length = 32) {data : Bytes} {ops : List Op} (hp : parseOps data = .ok ops) :
    FitsX (reviewOf cr digest (0x03 :: (branch ++ data))) (UInt8.ofNat (totalItems ops % 256)) := by
  have hshort := reviewOf_short hs hd (0x03 :: (branch ++ data))
  rw [reviewOf_batch cr digest hb] at hshort ⊢
  exact ⟨C38_announced_truncated _ _ hp, fun n f hf => by have := hshort n f hf; omega, signOpItem_there hp⟩

/-- **C74, partial.** On the devices with the larger display: when the review of a batch of operations is approved, and
no single operation has more than 255 items, then the batch has at most 255 items in all, and the user has read
every item that the batch must show, each under its title. (A batch with more items cannot be approved.) -/
theorem C74_batch_read_partial {cr : Crypto} (hs : cr.Sized) {digest : Bytes} (hd : digest.length = 32) (branch : Bytes)
    (hb : branch.length = 32) (os : List Operation) (hv : ∀ o ∈ os, o.Valid) (rest : Bytes) (hr : IsOpaque rest)
    (hsmall : ∀ o ∈ os, o.review.length < 256) (z0 : ZuiX) (bs : List Button) {z : ZuiX} {log : List SeenX}
    (hrun : uiRunX (reviewOf cr digest (0x03 :: (branch ++ (os.flatMap Operation.encode ++ rest)))) z0.showReview
      [.please] bs = some (z, log)) (happ : z.action = .approve) :
    (batchReview branch os rest).length < 256 ∧ ∀ e ∈ batchReview branch os rest, UserReadX cr.hashes log e := by
  have hp := parseOps_batch os hv rest hr
  obtain ⟨hend, hall⟩ := C73_approval_after_every_item (reviewOf_fits hs hd hb hp) z0 bs hrun happ
  rw [reviewOf_batch cr digest hb] at hend hall
  have hlen := batchReview_length branch os rest
  have hcount : ((os.map Op.ofSpec ++ opaqueOps rest).map fun op => op.uiItems % 256) =
      (os.map Op.ofSpec ++ opaqueOps rest).map Op.uiItems := by
    refine List.map_congr_left fun op hop => Nat.mod_eq_of_lt ?_
    rcases List.mem_append.mp hop with h | h
    · obtain ⟨o, ho, rfl⟩ := List.mem_map.mp h
      rw [Op.uiItems_review]
      exact hsmall o ho
    · cases rest with
      | nil => cases h
      | cons t r =>
        rw [opaqueOps, List.mem_singleton] at h
        subst h
        exact Nat.lt_of_sub_eq_succ rfl
  have hn : (batchReview branch os rest).length < 256 := by
    have := (signOpItem_missing hp hend).2
    rw [hcount] at this
    have hlt := (UInt8.ofNat (totalItems (os.map Op.ofSpec ++ opaqueOps rest) % 256)).toNat_lt
    rw [hlen]
    unfold totalItems at *
    omega
  refine ⟨hn, fun e he => ?_⟩
  obtain ⟨n, hne⟩ := List.mem_iff_getElem?.mp he
  have hlt := (List.getElem?_eq_some_iff.mp hne).1
  obtain ⟨f, hf, hsh⟩ := hall n (by
    simp only [UInt8.toNat_ofNat']
    rw [hlen] at hlt hn
    omega)
  exact userReadX_of_shown (batchReview_plain hn e he)
    (((C57_review cr branch hb os hv rest hr hn).2 n e hne).correct f hf) hsh

/-! ### C75: the end can be reached -/

theorem uiRunX_append (v : Viewer) (a b : List Button) (z : ZuiX) (log : List SeenX) :
    uiRunX v z log (a ++ b) = (uiRunX v z log a).bind fun x => uiRunX v x.1 x.2 b := by
  induction a generalizing z log with
  | nil => rfl
  | cons c a ih =>
    cases c
    · simp only [List.cons_append, uiRunX]
      split
      · exact ih _ _
      · rfl
    · simp only [List.cons_append, uiRunX]
      split
      · exact ih _ _
      · rfl
    · simp only [List.cons_append, uiRunX]
      split
      · exact ih _ _
      · rfl

/-- The review is at item `k`, which is displayed. -/
structure AtItem (v : Viewer) (num : UInt8) (z : ZuiX) (k : Nat) : Prop where
  step : z.step = .item
  inside : z.inside = true
  idx : z.itemIdx = k
  count : z.itemCount = num.toNat + 1
  page : z.pageIdx = 0
  pages : z.pageCount = 1
  seen : ∃ f, v.item (UInt8.ofNat k) = .ok f ∧ z.seen = SeenX.shows f

theorem AtItem.entered {v : Viewer} {num : UInt8} (hv : FitsX v num) (z : ZuiX) (hp : z.pageIdx = 0 ∨ z.pageIdx = 255)
    {f : Field} (hf : v.item (UInt8.ofNat z.itemIdx) = .ok f) :
    ∃ z', reviewUpdateX (some v) z = .shown z' ∧ AtItem v num z'.enterItem z.itemIdx :=
  ⟨_, reviewUpdateX_ok hv z hp hf, ⟨rfl, rfl, rfl, rfl, rfl, rfl, f, hf, rfl⟩⟩

/-- The first press of the right button. -/
theorem first_item {v : Viewer} {num : UInt8} (hv : FitsX v num) (z0 : ZuiX) {f : Field} (hf : v.item 0 = .ok f) :
    ∃ z', z0.showReview.right (some v) = .on z' ∧ AtItem v num z' 0 := by
  obtain ⟨z', h1, h2⟩ := AtItem.entered hv z0.showReview.pagingInit (.inl rfl) (f := f) hf
  refine ⟨_, ?_, h2⟩
  show (reviewUpdateX (some v) z0.showReview.pagingInit).thenItem .error = _
  rw [h1]
  rfl

theorem AtItem.increase {v : Viewer} {num : UInt8} {z : ZuiX} {k : Nat} (h : AtItem v num z k) (hk : k < num.toNat) :
    z.pagingIncrease = { z with itemIdx := k + 1 } := by
  obtain ⟨_, _, rfl, h4, h5, h6, _⟩ := h
  cases z
  simp only at h4 h5 h6 hk
  simp [ZuiX.pagingIncrease, h4, h5, h6, hk]

theorem right_inside {v : Option Viewer} {z : ZuiX} (hs : z.step = .item) (hi : z.inside = true) :
    z.right v = match reviewUpdateX v z.pagingIncrease with
      | .shown z => .on z.enterItem
      | .noData z => .on { z with inside := false, step := .approve }
      | .rejected z => .rejected z
      | .failed z => .lost z
      | .panic => .panic
      | .hang => .hang := by
  unfold ZuiX.right
  rw [hs]
  show z.loopEnd v = _
  unfold ZuiX.loopEnd
  rw [if_pos hi]
  rfl

/-- The right button at an item, when the next item can be shown. -/
theorem AtItem.next {v : Viewer} {num : UInt8} (hv : FitsX v num) {z : ZuiX} {k : Nat} (h : AtItem v num z k)
    (hk : k < num.toNat) {f : Field} (hf : v.item (UInt8.ofNat (k + 1)) = .ok f) :
    ∃ z', z.right (some v) = .on z' ∧ AtItem v num z' (k + 1) := by
  obtain ⟨z', h1, h2⟩ := AtItem.entered hv { z with itemIdx := k + 1 } (.inl h.page) hf
  refine ⟨_, ?_, h2⟩
  rw [right_inside h.step h.inside, h.increase hk, h1]

/-- The right button at the last item. -/
theorem AtItem.last {v : Viewer} {num : UInt8} (hv : FitsX v num) {z : ZuiX} {k : Nat} (h : AtItem v num z k)
    (hk : k + 1 = num.toNat) (hend : v.item num = .error .noData) :
    ∃ z', z.right (some v) = .on z' ∧ z'.step = .approve ∧ z'.inside = false ∧ z'.itemIdx = num.toNat ∧
      z'.pageIdx = 0 := by
  have hu := reviewUpdateX_error hv { z with itemIdx := k + 1 } (e := .noData) (by
    simp only [hk, UInt8.ofNat_toNat]; exact hend)
  refine ⟨{ { z with itemIdx := k + 1 } with
    itemCount := num.toNat + 1, pageCount := 1, inside := false, step := .approve }, ?_, rfl, rfl, hk, h.page⟩
  rw [right_inside h.step h.inside, h.increase (by omega), hu]
  rfl

/-- The right button at an item, when the next item fails. -/
theorem AtItem.fails {v : Viewer} {num : UInt8} (hv : FitsX v num) {z : ZuiX} {k : Nat} (h : AtItem v num z k)
    (hk : k < num.toNat) (hf : v.item (UInt8.ofNat (k + 1)) = .error .unknown) :
    ∃ z', z.right (some v) = .lost z' := by
  have hu := reviewUpdateX_error hv { z with itemIdx := k + 1 } hf
  exact ⟨_, by rw [right_inside h.step h.inside, h.increase hk, hu]; rfl⟩

/-- The left button at an item other than the first. -/
theorem AtItem.back {v : Viewer} {num : UInt8} (hv : FitsX v num) {z : ZuiX} {k : Nat} (h : AtItem v num z (k + 1))
    {f : Field} (hf : v.item (UInt8.ofNat k) = .ok f) :
    ∃ z', z.left (some v) = .on z' ∧ AtItem v num z' k := by
  have hd : z.pagingDecrease = { z with itemIdx := k, pageIdx := 255 } := by
    simp [ZuiX.pagingDecrease, h.page, h.idx]
  have hc : z.canDecrease = true := by simp [ZuiX.canDecrease, h.idx]
  obtain ⟨z', h1, h2⟩ := AtItem.entered hv { z with itemIdx := k, pageIdx := 255 } (.inr rfl) hf
  refine ⟨_, ?_, h2⟩
  unfold ZuiX.left
  rw [h.step]
  show z.loopStart (some v) = _
  unfold ZuiX.loopStart
  rw [if_pos h.inside, if_pos hc, hd, h1]
  rfl

/-- The first items of a review, as displayed. -/
def shownItems (v : Viewer) : Nat → List SeenX
  | 0 => []
  | k + 1 => shownItems v k ++ (match v.item (UInt8.ofNat k) with | .ok f => [SeenX.shows f] | .error _ => [])

theorem run_right {v : Viewer} {num : UInt8} (hv : FitsX v num) (z0 : ZuiX) (k : Nat) (hk : k < num.toNat)
    (hok : ∀ i ≤ k, ∃ f, v.item (UInt8.ofNat i) = .ok f) :
    ∃ z, uiRunX v z0.showReview [.please] (List.replicate (k + 1) .right) =
      some (z, .please :: shownItems v (k + 1)) ∧ AtItem v num z k := by
  induction k with
  | zero =>
    obtain ⟨f, hf⟩ := hok 0 (by omega)
    obtain ⟨z, h1, h2⟩ := first_item hv z0 hf
    refine ⟨z, ?_, h2⟩
    obtain ⟨g, h3, h4⟩ := h2.seen
    simp only [List.replicate, uiRunX, h1, shownItems, List.nil_append, h3, h4, List.cons_append]
  | succ k ih =>
    obtain ⟨z, h1, h2⟩ := ih (by omega) (fun i hi => hok i (by omega))
    obtain ⟨f, hf⟩ := hok (k + 1) (by omega)
    obtain ⟨z', h3, h4⟩ := h2.next hv (by omega) hf
    refine ⟨z', ?_, h4⟩
    obtain ⟨g, h5, h6⟩ := h4.seen
    rw [List.replicate_succ', uiRunX_append, h1]
    simp only [Option.bind_some, uiRunX, h3, shownItems, h5, h6, List.cons_append]

/-- The left button at the first item. -/
theorem AtItem.home {v : Viewer} {num : UInt8} {z : ZuiX} (h : AtItem v num z 0) :
    ∃ z', z.left (some v) = .on z' ∧ z'.step = .title := by
  have hc : ¬ z.canDecrease = true := by simp [ZuiX.canDecrease, h.idx, h.page]
  refine ⟨{ z with inside := false, step := .title }, ?_, rfl⟩
  unfold ZuiX.left
  rw [h.step]
  show z.loopStart (some v) = _
  unfold ZuiX.loopStart
  rw [if_pos h.inside, if_neg hc]

/-- Going back from an item to the title. -/
theorem run_left {v : Viewer} {num : UInt8} (hv : FitsX v num) (k : Nat) {z : ZuiX} (log : List SeenX)
    (h : AtItem v num z k) (hok : ∀ i < k, ∃ f, v.item (UInt8.ofNat i) = .ok f) :
    ∃ z', uiRunX v z log (List.replicate (k + 1) .left) = some (z', log ++ (shownItems v k).reverse ++ [.please]) ∧
      z'.step = .title := by
  induction k generalizing z log with
  | zero =>
    obtain ⟨z', h1, h2⟩ := h.home
    refine ⟨z', ?_, h2⟩
    have : z'.seen = .please := by rw [ZuiX.seen, h2]
    simp only [List.replicate, uiRunX, h1, this, shownItems, List.reverse_nil, List.append_nil]
  | succ k ih =>
    obtain ⟨f, hf⟩ := hok k (by omega)
    obtain ⟨z1, h1, h2⟩ := h.back hv hf
    obtain ⟨z', h3, h4⟩ := ih (log ++ [z1.seen]) h2 (fun i hi => hok i (by omega))
    refine ⟨z', ?_, h4⟩
    obtain ⟨g, h5, h6⟩ := h2.seen
    rw [List.replicate_succ]
    simp only [uiRunX, h1]
    rw [h3]
    simp only [h6, shownItems, h5, List.reverse_append, List.reverse_singleton, List.append_assoc]

/-- C75: in a review that announces `num` items, all of which can be displayed, pressing the right button shows the items
one after the other, then the approval and the rejection; and from the approval the left button shows them all in the
opposite order and ends at the title. -/
theorem C75_walk {v : Viewer} {num : UInt8} (hv : FitsX v num) (hpos : 0 < num.toNat)
    (hok : ∀ i < num.toNat, ∃ f, v.item (UInt8.ofNat i) = .ok f) (hend : v.item num = .error .noData) (z0 : ZuiX) :
    ∃ z, uiRunX v z0.showReview [.please] (List.replicate (num.toNat + 1) .right) =
        some (z, .please :: shownItems v num.toNat ++ [.approve]) ∧ z.action = .approve ∧
      (∃ z', uiRunX v z0.showReview [.please] (List.replicate (num.toNat + 2) .right) =
        some (z', .please :: shownItems v num.toNat ++ [.approve, .reject]) ∧ z'.action = .reject) ∧
      ∃ z', uiRunX v z [] (List.replicate (num.toNat + 1) .left) =
        some (z', (shownItems v num.toNat).reverse ++ [.please]) ∧ z'.seen = .please := by
  obtain ⟨k, hk⟩ : ∃ k, num.toNat = k + 1 := ⟨num.toNat - 1, by omega⟩
  obtain ⟨z1, h1, h2⟩ := run_right hv z0 k (by omega) (fun i hi => hok i (by omega))
  obtain ⟨z, h3, hs, hi, hx, hp⟩ := h2.last hv hk.symm hend
  have hseen : z.seen = .approve := by rw [ZuiX.seen, hs]
  have hrun : uiRunX v z0.showReview [.please] (List.replicate (num.toNat + 1) .right) =
      some (z, .please :: shownItems v num.toNat ++ [.approve]) := by
    rw [List.replicate_succ', uiRunX_append, hk, h1]
    simp only [Option.bind_some, uiRunX, h3, hseen]
  refine ⟨z, hrun, by rw [ZuiX.action, hs], ⟨{ z with step := .reject }, ?_, rfl⟩, ?_⟩
  · rw [List.replicate_succ', uiRunX_append, hrun]
    have : z.right (some v) = .on { z with step := .reject } := by unfold ZuiX.right; rw [hs]
    simp only [Option.bind_some, uiRunX, this, ZuiX.seen, List.append_assoc, List.cons_append, List.nil_append]
  · obtain ⟨f, hf⟩ := hok k (by omega)
    have hd : z.pagingDecrease = { z with itemIdx := k, pageIdx := 255 } := by
      simp [ZuiX.pagingDecrease, hp, hx, hk]
    obtain ⟨z2, h4, h5⟩ := AtItem.entered hv { z with itemIdx := k, pageIdx := 255 } (.inr rfl) hf
    have hl : z.left (some v) = .on z2.enterItem := by
      unfold ZuiX.left
      rw [hs]
      show z.loopEnd (some v) = _
      unfold ZuiX.loopEnd
      rw [if_neg (by rw [hi]; decide), hd, h4]
      rfl
    obtain ⟨z3, h6, h7⟩ := run_left hv k ([] ++ [z2.enterItem.seen]) h5 (fun i hi => hok i (by omega))
    refine ⟨z3, ?_, by rw [ZuiX.seen, h7]⟩
    obtain ⟨g, h8, h9⟩ := h5.seen
    rw [hk, List.replicate_succ]
    simp only [uiRunX, hl]
    rw [h6]
    simp only [h9, shownItems, h8, List.reverse_append, List.reverse_singleton, List.nil_append, List.append_assoc]

theorem shownItems_length {v : Viewer} {k : Nat} (h : ∀ i < k, ∃ f, v.item (UInt8.ofNat i) = .ok f) :
    (shownItems v k).length = k := by
  induction k with
  | zero => rfl
  | succ k ih =>
    obtain ⟨f, hf⟩ := h k (by omega)
    simp only [shownItems, hf, List.length_append, List.length_singleton, ih (fun i hi => h i (by omega))]

theorem shownItems_getElem {v : Viewer} {k n : Nat} (h : ∀ i < k, ∃ f, v.item (UInt8.ofNat i) = .ok f) (hn : n < k)
    {f : Field} (hf : v.item (UInt8.ofNat n) = .ok f) : (shownItems v k)[n]? = some (SeenX.shows f) := by
  induction k with
  | zero => omega
  | succ k ih =>
    have h' : ∀ i < k, ∃ f, v.item (UInt8.ofNat i) = .ok f := fun i hi => h i (by omega)
    have hl := shownItems_length h'
    rcases Nat.lt_succ_iff_lt_or_eq.mp hn with hlt | rfl
    · rw [shownItems, List.getElem?_append_left (by omega)]
      exact ih h' hlt
    · rw [shownItems, List.getElem?_append_right (by omega), hl, hf]
      simp

/-- **C75, partial.** The review of a batch with at most 255 items, in which every number is below `2 ^ 28`, can be
approved on the devices with the larger display, if no hash function fails: the right button shows the items one after
the other, each with its title and a text that says what it must, and then arrives at the approval. -/
theorem C75_batch_approvable_partial {cr : Crypto} (hw : cr.Works) {digest : Bytes} (hd : digest.length = 32)
    (branch : Bytes) (hb : branch.length = 32) (os : List Operation) (hv : ∀ o ∈ os, o.Valid) (rest : Bytes)
    (hr : IsOpaque rest) (hn : (batchReview branch os rest).length < 256)
    (hread : ∀ e ∈ batchReview branch os rest, e.2.Readable) (z0 : ZuiX) :
    ∃ z log, uiRunX (reviewOf cr digest (0x03 :: (branch ++ (os.flatMap Operation.encode ++ rest)))) z0.showReview
        [.please] (List.replicate ((batchReview branch os rest).length + 1) .right) = some (z, log) ∧
      z.action = .approve ∧ log.length = (batchReview branch os rest).length + 2 ∧
      ∀ n e, (batchReview branch os rest)[n]? = some e →
        ∃ text, e.2.Text cr.hashes text ∧ log[n + 1]? = some (.item (ascii e.1) (dotted text)) := by
  have hp := parseOps_batch os hv rest hr
  have hfit := reviewOf_fits hw.sized hd hb (digest := digest) hp
  have hlen := batchReview_length branch os rest
  have hto : (UInt8.ofNat (totalItems (os.map Op.ofSpec ++ opaqueOps rest) % 256)).toNat =
      (batchReview branch os rest).length := by
    simp only [UInt8.toNat_ofNat']; omega
  have hpos : 0 < (batchReview branch os rest).length := by simp [batchReview]
  have hitems : ∀ i < (batchReview branch os rest).length,
      ∃ f, signOpItem cr branch (os.flatMap Operation.encode ++ rest) (UInt8.ofNat i) = .ok f := by
    intro i hi
    have he : (batchReview branch os rest)[i]? = some (batchReview branch os rest)[i] := List.getElem?_eq_getElem hi
    exact (((C57_review cr branch hb os hv rest hr hn).2 i _ he).shown hw).mpr (hread _ (List.getElem_mem hi))
  have hend : signOpItem cr branch (os.flatMap Operation.encode ++ rest)
      (UInt8.ofNat (totalItems (os.map Op.ofSpec ++ opaqueOps rest) % 256)) = .error .noData := by
    rw [(C39_item_order cr branch _ _ hp (by rw [← hlen]; exact hn)).2 _ (by
      intro h
      rw [h] at hto
      simp at hto
      omega), hto, List.getElem?_eq_none_iff.mpr (by
        rw [allFields_length]
        unfold totalItems at hlen
        omega)]
  rw [reviewOf_batch cr digest hb] at hfit ⊢
  obtain ⟨z, h1, h2, -, -⟩ := C75_walk hfit (by rw [hto]; exact hpos) (by rw [hto]; exact hitems) hend z0
  rw [hto] at h1
  have hcount := shownItems_length (v := ⟨numItemsOps (os.flatMap Operation.encode ++ rest),
    signOpItem cr branch (os.flatMap Operation.encode ++ rest)⟩) hitems
  refine ⟨z, _, h1, h2, ?_, fun n e he => ?_⟩
  · simp only [List.length_append, List.length_cons, List.length_nil, hcount]
  · have hlt := (List.getElem?_eq_some_iff.mp he).1
    obtain ⟨f, hf⟩ := hitems n hlt
    have hm := ((C57_review cr branch hb os hv rest hr hn).2 n e he).correct f hf
    refine ⟨_, hm.text, ?_⟩
    rw [List.cons_append, List.getElem?_cons_succ, List.getElem?_append_left (by rw [hcount]; exact hlt),
      shownItems_getElem hitems hlt hf, SeenX.shows, hm.title, printable_asciify (batchReview_plain hn e
        (List.mem_of_getElem? he)).1, asciify_dotted]

/-- **C75, negated.** If an item after the first fails, the flow of the system is left at an index below its first
step. -/
theorem C75_lost {v : Viewer} {num : UInt8} (hv : FitsX v num) (k : Nat) (hk : k + 1 < num.toNat)
    (hok : ∀ i ≤ k, ∃ f, v.item (UInt8.ofNat i) = .ok f) (hf : v.item (UInt8.ofNat (k + 1)) = .error .unknown)
    (z0 : ZuiX) :
    ∃ z z' log, uiRunX v z0.showReview [.please] (List.replicate (k + 1) .right) = some (z, log) ∧
      z.right (some v) = .lost z' := by
  obtain ⟨z, h1, h2⟩ := run_right hv z0 k (by omega) hok
  obtain ⟨z', h3⟩ := h2.fails hv (by omega) hf
  exact ⟨z, z', _, h1, h3⟩

/-! ### Concrete cases -/

namespace Demo

theorem crypto_works : crypto.Works := ⟨crypto_sized, fun _ => rfl, fun _ => rfl⟩

def branch : Bytes := List.replicate 32 5

/-- The review of a message with these operations. -/
def reviewX (os : List Operation) : Viewer :=
  reviewOf crypto (List.replicate 32 0) (0x03 :: (branch ++ (os.flatMap Operation.encode ++ [])))

/-- A review screen that was never used. -/
def zuiX : ZuiX := ⟨0, 0, 0, 0, false, [], [], .title⟩

/-- A transfer. -/
def transfer (amount : Nat) : Operation :=
  .transfer ⟨⟨.ed25519, List.replicate 20 0⟩, 1, 2, 3, 4⟩ amount (.account ⟨.ed25519, List.replicate 20 1⟩) none

/-- Upvoting 253 proposals. -/
def manyProposals : Operation := .proposals ⟨.ed25519, List.replicate 20 7⟩ 12 (List.replicate 253 (List.replicate 32 3))

theorem manyProposals_valid : manyProposals.Valid := by
  refine ⟨rfl, ?_, by rw [List.length_replicate]; decide⟩
  intro p hp
  rw [(List.mem_replicate.mp hp).2]
  rfl

theorem transfer_valid (n : Nat) : (transfer n).Valid := by
  simp [transfer, Operation.Valid, Account.Valid, Destination.Valid, validOption]

theorem delegationOp_valid : delegationOp.Valid := by
  simp [delegationOp, Operation.Valid, Account.Valid, validOption]

theorem zarith_2_28 : zarithEncode (2 ^ 28) = [128, 128, 128, 128, 1] := by
  simp [zarithEncode]

/-- The bytes of a transfer of `2 ^ 28` millionths of a tez. -/
theorem transfer_encode : (transfer (2 ^ 28)).encode =
    [108] ++ List.replicate 21 0 ++ [1, 2, 3, 4] ++ [128, 128, 128, 128, 1] ++ [0, 0] ++ List.replicate 20 1 ++
      [0] := by
  rw [transfer, Operation.encode, zarith_2_28]
  simp [ManagerFields.encode, zarithEncode, Destination.encode, Account.encode, encodeOption, List.replicate,
    KeyKind.tag]

end Demo

set_option maxRecDepth 100000 in
/-- **C74, negated** without its hypothesis on single operations: a valid operation with 253 proposals, which fits the
memory for messages, has 256 items but the search counts none of them; on the devices with the larger display it can be
approved with only the branch shown. -/
theorem C74_hidden_proposals : ∃ o : Operation, o.Valid ∧ o.review.length = 256 ∧
    (0x03 :: (Demo.branch ++ o.encode)).length ≤ uploadCapacity ∧
    ∃ z t, uiRunX (Demo.reviewX [o]) Demo.zuiX.showReview [.please] [.right, .right] =
      some (z, [.please, .item (ascii "Operation") t, .approve]) ∧ z.action = .approve := by
  refine ⟨Demo.manyProposals, Demo.manyProposals_valid, by simp [Demo.manyProposals, Operation.review],
    by decide +kernel, ?_⟩
  refine ⟨⟨1, 2, 0, 1, false, ascii "Operation", ascii "BKkVZ8SigP89Xpt4nQsGLhUpzdEikCQZFvxCYAAwxK6jMZpK3m1", .approve⟩,
    ascii "BKkVZ8SigP89Xpt4nQsGLhUpzdEikCQZFvxCYAAwxK6jMZpK3m1", ?_, rfl⟩
  decide +kernel

set_option maxRecDepth 100000 in
/-- **C75, negated** without its hypothesis on numbers: the review of a transfer of `2 ^ 28` millionths of a tez shows
the branch, the type, the source and the destination, and then the flow of the system is left at an index below its first
step. -/
theorem C75_large_amount : ∃ o : Operation, o.Valid ∧ (batchReview Demo.branch [o] []).length = 10 ∧
    ∃ x z', uiRunX (Demo.reviewX [o]) Demo.zuiX.showReview [.please] (List.replicate 4 .right) = some x ∧
      x.1.right (some (Demo.reviewX [o])) = .lost z' := by
  refine ⟨Demo.transfer (2 ^ 28), Demo.transfer_valid _, rfl, ?_⟩
  have h : Demo.reviewX [Demo.transfer (2 ^ 28)] = reviewOf Demo.crypto (List.replicate 32 0) (0x03 :: (Demo.branch ++
      ([108] ++ List.replicate 21 0 ++ [1, 2, 3, 4] ++ [128, 128, 128, 128, 1] ++ [0, 0] ++ List.replicate 20 1 ++
      [0]))) := by
    simp only [Demo.reviewX, List.flatMap_cons, List.flatMap_nil, List.append_nil, Demo.transfer_encode]
  rw [h]
  have hrun : ((uiRunX (reviewOf Demo.crypto (List.replicate 32 0) (0x03 :: (Demo.branch ++
      ([108] ++ List.replicate 21 0 ++ [1, 2, 3, 4] ++ [128, 128, 128, 128, 1] ++ [0, 0] ++ List.replicate 20 1 ++
      [0])))) Demo.zuiX.showReview [.please] (List.replicate 4 .right)).map fun x =>
      match x.1.right (some (reviewOf Demo.crypto (List.replicate 32 0) (0x03 :: (Demo.branch ++
      ([108] ++ List.replicate 21 0 ++ [1, 2, 3, 4] ++ [128, 128, 128, 128, 1] ++ [0, 0] ++ List.replicate 20 1 ++
      [0]))))) with | .lost _ => true | _ => false) = some true := by decide +kernel
  obtain ⟨x, hx, hl⟩ := Option.map_eq_some_iff.mp hrun
  split at hl
  · exact ⟨x, _, hx, ‹_›⟩
  · cases hl

namespace Demo

set_option maxRecDepth 100000 in
/-- The hypotheses of C73 and C74: the review of a delegation, approved after it was read forward, back to the middle and
forward again. -/
example :
    (∀ o ∈ [delegationOp], o.review.length < 256) ∧
    (uiRunX (reviewOf crypto (List.replicate 32 0) delegation) zuiX.showReview [.please]
      (List.replicate 5 .right ++ [.both, .left, .left] ++ List.replicate 6 .right)).map (fun x => x.1.action) =
      some .approve := by
  refine ⟨by intro o ho; rw [List.mem_singleton.mp ho]; decide, ?_⟩
  decide +kernel

/-- The hypotheses of C75: all of its items can be displayed. -/
example : delegationOp.Valid ∧ (batchReview branch [delegationOp] []).length = 8 ∧
    ∀ e ∈ batchReview branch [delegationOp] [], e.2.Readable := by
  refine ⟨delegationOp_valid, rfl, ?_⟩
  simp [batchReview, delegationOp, Operation.review, opaqueReview, Shown.Readable]

end Demo

end Tezos
