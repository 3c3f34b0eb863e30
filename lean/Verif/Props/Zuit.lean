import Verif.Zuit
import Verif.Props.Buffers
import Verif.Props.WalkX
import Verif.Props.Seen
/-
C102: what a passed test of a review says about the device.
-/
namespace Tezos
open Spec

/-! ### The tool -/

theorem utf8From_zeros {t : Bytes} {n : Nat} {lo hi : UInt8} (h : 0 < lo) (k : Nat) :
    utf8From n lo hi (t ++ List.replicate k 0) = utf8From n lo hi t := by
  induction t generalizing n lo hi with
  | nil =>
    rw [List.nil_append]
    have h0 : ∀ k, utf8From 0 0x80 0xBF (List.replicate k 0) = true := by
      intro k
      induction k with
      | zero => rfl
      | succ k ih => exact ih
    cases n with
    | zero =>
      cases k with
      | zero => rfl
      | succ k => exact h0 k
    | succ n =>
      cases k with
      | zero => rfl
      | succ k =>
        show (if lo ≤ 0 ∧ 0 ≤ hi then _ else false) = false
        rw [if_neg (fun hh => absurd (UInt8.lt_of_lt_of_le h hh.1) (UInt8.lt_irrefl 0))]
  | cons a t ih =>
    rw [List.cons_append]
    cases n with
    | zero =>
      unfold utf8From
      repeat' (first | (refine ite_congr rfl (fun _ => ?_) (fun _ => ?_)) | exact ih (by decide) | rfl)
    | succ n =>
      unfold utf8From
      exact ite_congr rfl (fun _ => ih (by decide)) (fun _ => rfl)

theorem isUtf8_zeros (t : Bytes) (k : Nat) : isUtf8 (t ++ List.replicate k 0) = isUtf8 t :=
  utf8From_zeros (by decide) k

/-- The page on which a short item is. -/
def onePage (f : Field) : TestPage :=
  ⟨f.title ++ List.replicate (18 - f.title.length) 0, f.text ++ List.replicate (4096 - f.text.length) 0⟩

theorem writeFront_zeros {t : Bytes} {n : Nat} (h : t.length < n) :
    writeFront (List.replicate n 0) (t ++ [0]) = .ok (t ++ List.replicate (n - t.length) 0) := by
  unfold writeFront
  rw [if_pos (by simp; omega), List.drop_replicate, List.append_assoc]
  have e : n - t.length = (n - (t ++ [0]).length) + 1 := by simp; omega
  rw [e, List.replicate_succ]
  rfl

theorem testRender_short {v : Viewer} {i : UInt8} {f : Field} (hf : v.item i = .ok f) (hc : f.Clean)
    (hs : f.text.length < 4095) (page : UInt8) : testRender v 18 4096 i page = .ok (onePage f, 1) := by
  unfold testRender
  rw [hf]
  dsimp only [bind, Except.bind]
  have hh : handleUi f.text 4096 page = .ok (f.text, 1) := handleUi_short hs page
  rw [writeFront_zeros (by have := hc.fits; omega), hh]
  dsimp only
  rw [writeFront_zeros (by omega)]
  rfl

theorem onePage_title_utf8 {f : Field} (hc : f.Clean) : isUtf8 (onePage f).title = true := by
  show isUtf8 (f.title ++ _) = true
  rw [isUtf8_zeros]
  exact Ascii7.utf8 fun c h => (hc.title c h).2

theorem Field.Clean.visible {f : Field} (hc : f.Clean) :
    (0 : UInt8) ∉ visible f.text ∧ ∃ k, f.text = Spec.visible f.text ++ List.replicate k 0 := by
  obtain ⟨t, h0, h⟩ := hc.text
  have hv : Spec.visible f.text = t := by
    unfold Spec.visible
    rcases h with h | h
    · rw [h]
      exact takeWhile_clean h0
    · rw [h]
      exact cString_append h0
  rw [hv]
  refine ⟨h0, ?_⟩
  rcases h with h | h
  · exact ⟨0, by simpa using h⟩
  · exact ⟨1, h⟩

theorem onePage_message_utf8 {f : Field} (hc : f.Clean) : isUtf8 (onePage f).message = isUtf8 (visible f.text) := by
  show isUtf8 (f.text ++ _) = _
  rw [isUtf8_zeros]
  obtain ⟨k, hk⟩ := hc.visible.2
  conv_lhs => rw [hk]
  exact isUtf8_zeros _ _

theorem drivePages_short {v : Viewer} {i : UInt8} {f : Field} (hf : v.item i = .ok f) (hc : f.Clean)
    (hs : f.text.length < 4095) :
    drivePages v 18 4096 i 255 0 255 = if isUtf8 (visible f.text) = true then .ok [onePage f] else .error .panic := by
  unfold drivePages
  rw [if_pos (by decide), testRender_short hf hc hs]
  dsimp only [bind, Except.bind]
  unfold expectUtf8
  rw [if_pos (onePage_title_utf8 hc), onePage_message_utf8 hc]
  by_cases hu : isUtf8 (visible f.text) = true
  · simp only [if_pos hu]
    unfold drivePages
    rw [if_neg (by decide)]
    rfl
  · simp only [if_neg hu]

theorem drivePages_error {v : Viewer} {i : UInt8} {e : VErr} (hf : v.item i = .error e) (T M : Nat) :
    drivePages v T M i 255 0 255 = .error e := by
  unfold drivePages testRender
  rw [if_pos (by decide), hf]
  rfl

/-- What the tool collects of a review with short items. -/
theorem driveItems_short {v : Viewer} (hv : v.Clean) (hs : ∀ n f, v.item n = .ok f → f.text.length < 4095)
    (is : List Nat) (out : List (List TestPage)) : driveItems v 18 4096 is = .ok out ↔
      List.Forall₂ (fun i pages => ∃ f, v.item (UInt8.ofNat i) = .ok f ∧ isUtf8 (visible f.text) = true ∧
        pages = [onePage f]) is out := by
  induction is generalizing out with
  | nil =>
    rw [List.forall₂_nil_left_iff]
    exact ⟨fun h => by cases h; rfl, fun h => by rw [h]; rfl⟩
  | cons i is ih =>
    rw [List.forall₂_cons_left_iff]
    unfold driveItems
    cases hi : v.item (UInt8.ofNat i) with
    | error e =>
      rw [drivePages_error hi]
      refine ⟨fun h => (by cases h), fun h => ?_⟩
      obtain ⟨_, _, ⟨f, hf, -⟩, -⟩ := h
      cases hf
    | ok f =>
      rw [drivePages_short hi (hv _ _ hi) (hs _ _ hi)]
      by_cases hu : isUtf8 (visible f.text) = true
      · rw [if_pos hu]
        dsimp only [bind, Except.bind]
        cases hr : driveItems v 18 4096 is with
        | error e =>
          refine ⟨fun h => (by cases h), fun h => ?_⟩
          obtain ⟨_, r, -, h, -⟩ := h
          rw [(ih r).mpr h] at hr
          cases hr
        | ok r =>
          constructor
          · intro h
            cases h
            exact ⟨_, _, ⟨f, rfl, hu, rfl⟩, (ih r).mp hr, rfl⟩
          · rintro ⟨_, r', ⟨g, hg, -, rfl⟩, h, rfl⟩
            cases hg
            rw [(ih r').mpr h] at hr
            cases hr
            rfl
      · rw [if_neg hu]
        refine ⟨fun h => (by cases h), fun h => ?_⟩
        obtain ⟨_, _, ⟨g, hg, h, -⟩, -⟩ := h
        cases hg
        exact absurd h hu

theorem bufferText_zeros {t : Bytes} (h0 : (0 : UInt8) ∉ t) (hu : isUtf8 t = true) {k : Nat} (hk : 0 < k) :
    bufferText (t ++ List.replicate k 0) = some t := by
  obtain ⟨k, rfl⟩ : ∃ j, k = j + 1 := ⟨k - 1, by omega⟩
  have hc : cString (t ++ List.replicate (k + 1) 0) = t := by
    rw [List.replicate_succ]
    exact cString_append h0
  unfold bufferText
  rw [hc, if_pos ⟨by simp, hu⟩]

theorem pageAsExpected_one {f : Field} (hc : f.Clean) (hs : f.text.length < 4095)
    (hu : isUtf8 (visible f.text) = true) (title text : Bytes) :
    pageAsExpected title (onePage f, text) = true ↔ title <+: f.title ∧ text = visible f.text := by
  have h1 : bufferText (onePage f).title = some f.title :=
    bufferText_zeros (fun h0 => absurd (hc.title 0 h0).1 (by decide)) (Ascii7.utf8 fun c h => (hc.title c h).2)
      (by have := hc.fits; omega)
  have h2 : bufferText (onePage f).message = some (visible f.text) := by
    obtain ⟨h0, k, hk⟩ := hc.visible
    show bufferText (f.text ++ List.replicate (4096 - f.text.length) 0) = _
    have e : f.text ++ List.replicate (4096 - f.text.length) 0 =
        visible f.text ++ List.replicate (k + (4096 - f.text.length)) 0 := by
      conv_lhs => rw [hk]
      rw [List.append_assoc, ← List.replicate_add, ← hk]
    rw [e]
    exact bufferText_zeros h0 hu (by omega)
  unfold pageAsExpected
  rw [h1, h2]
  simp only [Bool.and_eq_true, decide_eq_true_eq, List.isPrefixOf_iff_prefix]
  exact and_congr Iff.rfl eq_comm

/-- **C102**, what is tested: a test passes exactly if every item of the review can be displayed and is UTF-8, and every
item that the test expects is there, has a title that starts as expected, and the first text expected as its text. More
texts for the item are not looked at, and if there are none, neither is the title; nor are items that the test does not
mention. -/
theorem C102_tested (v : Viewer) (hv : v.Clean) (hs : ∀ n f, v.item n = .ok f → f.text.length < 4095)
    (ui : List ExpectedPage) :
    verifyUi v ui = true ↔ ∃ num, v.numItems = .ok num ∧
      (∀ i < num.toNat, ∃ f, v.item (UInt8.ofNat i) = .ok f ∧ isUtf8 (visible f.text) = true) ∧
      ∀ e ∈ ui, e.idx < num.toNat ∧ ∃ f, v.item (UInt8.ofNat e.idx) = .ok f ∧
        ∀ text, e.message.head? = some text → e.title <+: f.title ∧ text = visible f.text := by
  have key : ∀ {num : UInt8} {out : List (List TestPage)},
      List.Forall₂ (fun i pages => ∃ f, v.item (UInt8.ofNat i) = .ok f ∧ isUtf8 (visible f.text) = true ∧
        pages = [onePage f]) (List.range num.toNat) out → ∀ e : ExpectedPage,
      (itemAsExpected out e = true ↔ e.idx < num.toNat ∧ ∃ f, v.item (UInt8.ofNat e.idx) = .ok f ∧
        ∀ text, e.message.head? = some text → e.title <+: f.title ∧ text = visible f.text) := by
    intro num out h e
    have hlen : out.length = num.toNat := by rw [← h.length_eq, List.length_range]
    unfold itemAsExpected
    by_cases hlt : e.idx < num.toNat
    · have ho : out[e.idx]? = some (out[e.idx]'(by omega)) := List.getElem?_eq_getElem (by omega)
      obtain ⟨f, hf, hu, hp⟩ := h.get (by simpa using hlt) (by omega : e.idx < out.length)
      simp only [List.get_eq_getElem, List.getElem_range] at hf hp
      rw [ho, hp]
      have hc := hv _ _ hf
      have hs' := hs _ _ hf
      dsimp only
      constructor
      · intro ha
        refine ⟨hlt, f, hf, fun text ht => ?_⟩
        cases hm : e.message with
        | nil => rw [hm] at ht; cases ht
        | cons a l =>
          rw [hm] at ht ha
          cases ht
          rw [List.zip_cons_cons, List.all_cons, Bool.and_eq_true] at ha
          exact (pageAsExpected_one hc hs' hu _ _).mp ha.1
      · rintro ⟨-, g, hg, ha⟩
        rw [hf] at hg
        cases hg
        cases hm : e.message with
        | nil => rfl
        | cons a l =>
          rw [List.zip_cons_cons, List.zip_nil_left, List.all_cons, List.all_nil, Bool.and_true]
          exact (pageAsExpected_one hc hs' hu _ _).mpr (ha a (by rw [hm]; rfl))
    · rw [List.getElem?_eq_none (by omega)]
      exact ⟨fun h => (by cases h), fun h => absurd h.1 hlt⟩
  have hd : ∀ out, drive v 18 4096 = .ok out ↔ ∃ num, v.numItems = .ok num ∧
      List.Forall₂ (fun i pages => ∃ f, v.item (UInt8.ofNat i) = .ok f ∧ isUtf8 (visible f.text) = true ∧
        pages = [onePage f]) (List.range num.toNat) out := by
    intro out
    unfold drive
    cases hn : v.numItems with
    | error e => exact ⟨fun h => (by cases h), fun ⟨_, h, _⟩ => (by cases h)⟩
    | ok num =>
      refine (driveItems_short hv hs _ out).trans ⟨fun h => ⟨num, rfl, h⟩, fun ⟨_, h, h'⟩ => ?_⟩
      cases h
      exact h'
  unfold verifyUi
  constructor
  · intro h
    split at h
    · cases h
    · rename_i out ho
      obtain ⟨num, hn, hf⟩ := (hd out).mp ho
      refine ⟨num, hn, fun i hi => ?_, fun e he => ?_⟩
      · have hlen : out.length = num.toNat := by rw [← hf.length_eq, List.length_range]
        obtain ⟨f, h1, h2, -⟩ := hf.get (by simpa using hi) (by omega : i < out.length)
        simp only [List.get_eq_getElem, List.getElem_range] at h1
        exact ⟨f, h1, h2⟩
      · exact (key hf e).mp (List.all_eq_true.mp h e he)
  · rintro ⟨num, hn, hi, he⟩
    have : ∃ out, List.Forall₂ (fun i pages => ∃ f, v.item (UInt8.ofNat i) = .ok f ∧ isUtf8 (visible f.text) = true ∧
        pages = [onePage f]) (List.range num.toNat) out := by
      have : ∀ l : List Nat, (∀ i ∈ l, i < num.toNat) → ∃ out, List.Forall₂ (fun i pages =>
          ∃ f, v.item (UInt8.ofNat i) = .ok f ∧ isUtf8 (visible f.text) = true ∧ pages = [onePage f]) l out := by
        intro l hl
        induction l with
        | nil => exact ⟨[], .nil⟩
        | cons i l ih =>
          obtain ⟨out, ho⟩ := ih fun j hj => hl j (List.mem_cons_of_mem _ hj)
          obtain ⟨f, h1, h2⟩ := hi i (hl i List.mem_cons_self)
          exact ⟨_, .cons ⟨f, h1, h2, rfl⟩ ho⟩
      exact this _ fun i hi => List.mem_range.mp hi
    obtain ⟨out, ho⟩ := this
    rw [(hd out).mpr ⟨num, hn, ho⟩]
    dsimp only
    rw [List.all_eq_true]
    exact fun e h => (key ho e).mpr (he e h)

/-! ### The device -/

theorem reviewPages_mem {v : Viewer} {i : Nat} {f : Field} (hf : v.item (UInt8.ofNat i) = .ok f) {n : Nat} (hi : i < n)
    {j : Nat} (hj : j < (pagesOf 34 f.text).length) : (f, j) ∈ reviewPages v n := by
  induction n with
  | zero => omega
  | succ n ih =>
    rw [reviewPages, List.mem_append]
    by_cases h : i < n
    · exact .inl (ih h)
    · obtain rfl : i = n := by omega
      right
      rw [hf]
      simpa using hj

theorem shownItems_mem {v : Viewer} {i : Nat} {f : Field} (hf : v.item (UInt8.ofNat i) = .ok f) {n : Nat}
    (hi : i < n) : SeenX.shows f ∈ shownItems v n := by
  induction n with
  | zero => omega
  | succ n ih =>
    rw [shownItems, List.mem_append]
    by_cases h : i < n
    · exact .inl (ih h)
    · obtain rfl : i = n := by omega
      right
      rw [hf]
      simp

theorem Field.Clean.allVisible {f : Field} (hc : f.Clean) : AllVisible f.text := by
  obtain ⟨t, h0, h⟩ := hc.text
  unfold AllVisible Spec.visible
  rcases h with h | h
  · left; rw [h, takeWhile_clean h0]
  · right
    rw [h]
    exact congrArg (· ++ [0]) (cString_append h0).symm

theorem Field.Clean.printable {f : Field} (hc : f.Clean) : Printable f.title := fun c h =>
  ⟨(hc.title c h).1, by
    have := UInt8.lt_iff_toNat_lt.mp (hc.title c h).2
    rw [UInt8.le_iff_toNat_le]
    simp only [UInt8.reduceToNat] at this ⊢
    omega⟩

/-- **C102.** If a test of the review of a message passes, and the device opens this review, then pressing the right
button leads to the approval, nothing is answered meanwhile, and the user has read every item that the test expects: a
title that starts as expected, and under it the text expected, with dots in place of characters that are not ASCII. On
the larger display the review must end after the items announced; it does for less than 256 items (C75). -/
theorem C102_shown (cfg : Config) (m : Moment) (v : View) (hs : m.env.cr.Sized) (ho : m.Opens cfg v)
    (hon : (m.next cfg).OnScreen) (env : Env) (hc : env.cr = m.env.cr) (w : Viewer)
    (hw : w = v.viewer env.cr (m.next cfg).upl.buf)
    (hend : m.st.zui.display = .large → ∀ num, w.numItems = .ok num → w.item num = .error .noData)
    (ui : List ExpectedPage) (hne : ui ≠ []) (hp : verifyUi w ui = true) :
    ∃ k s', (m.next cfg).run cfg (List.replicate k (env, .right)) = (s', List.replicate k .quiet) ∧
      Approves s' .both v ∧
      ∀ e ∈ ui, ∀ text, e.message.head? = some text → ∃ title, e.title <+: title ∧
        Reads (((m.next cfg).trace cfg (List.replicate k (env, .right))).map fun x => x.st.zui.screen) title
          (dotted text) := by
  have hclean : w.Clean := hw ▸ C99_clean _ _ _
  have hfit : ∀ num, w.numItems = .ok num → FitsX w num := fun num hn => by
    rw [hw] at hn ⊢
    exact C73_reviews_fit cfg m v hs ho env.cr (hc ▸ hs) _ num hn
  have hshort : ∀ n f, w.item n = .ok f → f.text.length < 4095 := by
    unfold verifyUi drive at hp
    cases hn : w.numItems with
    | error e => rw [hn] at hp; cases hp
    | ok num => exact (hfit num hn).short
  obtain ⟨num, hn, hi, he⟩ := (C102_tested w hclean hshort ui).mp hp
  have hi' : ∀ i < num.toNat, ∃ f, w.item (UInt8.ofNat i) = .ok f := fun i h => by
    obtain ⟨f, hf, -⟩ := hi i h
    exact ⟨f, hf⟩
  have hpos : 0 < num.toNat := by
    obtain ⟨e, h⟩ := List.exists_mem_of_ne_nil ui hne
    have := (he e h).1
    omega
  cases hd : m.st.zui.display with
  | small =>
    obtain ⟨z, z', h1, h2, h3, -⟩ := C76_device cfg m v hd hs ho hon env hc w hw num hn hpos hi'
    refine ⟨_, _, h1, h3, fun e h text ht => ?_⟩
    obtain ⟨hlt, f, hf, hx⟩ := he e h
    obtain ⟨h4, rfl⟩ := hx text ht
    have hcl := hclean _ _ hf
    refine ⟨f.title, h4, ?_⟩
    rw [h2]
    refine reads_of_shown (.inl fun j hj => ?_) hcl.allVisible hcl.printable
    obtain ⟨n, hn'⟩ := List.getElem?_of_mem (reviewPages_mem hf hlt hj)
    obtain ⟨s, hs1, hs2⟩ := (C76_screens w num.toNat).2 n f j hn'
    exact ⟨s, List.mem_of_getElem? hs1, hs2⟩
  | large =>
    obtain ⟨z, z', h1, h2, h3, -⟩ := C75_device cfg m v hd hs ho hon env hc w hw num hn hpos hi' (hend hd num hn)
    refine ⟨_, _, h1, h3, fun e h text ht => ?_⟩
    obtain ⟨hlt, f, hf, hx⟩ := he e h
    obtain ⟨h4, rfl⟩ := hx text ht
    have hcl := hclean _ _ hf
    refine ⟨f.title, h4, ?_⟩
    rw [h2]
    refine reads_of_shown (.inr ⟨_, List.mem_cons_of_mem _ (List.mem_map_of_mem (shownItems_mem hf hlt)), ?_⟩)
      hcl.allVisible hcl.printable
    rfl

/-- The review of less than 256 items ends after the items that it announces. -/
theorem signOpItem_end {cr : Crypto} {branch i : Bytes} {num : UInt8} (hn : numItemsOps i = .ok num)
    (h : ∀ l, parseOps i = .ok l → totalItems l < 256) : signOpItem cr branch i num = .error .noData := by
  unfold numItemsOps at hn
  cases hp : parseOps i with
  | error e => rw [hp] at hn; cases hn
  | ok l =>
    have ht := h l hp
    rw [hp] at hn
    simp only [Except.ok.injEq] at hn
    have hto : num.toNat = totalItems l := by
      rw [← hn, UInt8.toNat_ofNat']
      unfold totalItems at ht ⊢
      exact Nat.mod_eq_of_lt ht
    rw [(C39_item_order cr branch i l hp ht).2 num fun h0 => by
      rw [h0] at hto
      unfold totalItems at hto
      simp at hto
      omega, hto, List.getElem?_eq_none_iff.mpr (by rw [allFields_length]; unfold totalItems; omega)]

/-- **C102**, the tests of the repository: if the display of the operations `blob` is tested, the test passes, and the
device opens the review of these operations, then pressing the right button leads to the approval, nothing is answered
meanwhile, and the user has read every item that the test expects. On the larger display this is shown for less than 256
items. -/
theorem C102_sample (cfg : Config) (m : Moment) (h : Bool) (d : Bytes) (r : Option MemRef) (blob : Bytes)
    (hs : m.env.cr.Sized) (ho : m.Opens cfg (.sign h d r (0x03 :: blob))) (hon : (m.next cfg).OnScreen)
    (hlarge : m.st.zui.display = .large → ∀ l, parseOps (blob.drop 32) = .ok l → totalItems l < 256)
    (ui : List ExpectedPage) (hne : ui ≠ []) (hp : testUi m.env.cr blob ui = true)
    (env : Env) (hc : env.cr = m.env.cr) :
    ∃ k s', (m.next cfg).run cfg (List.replicate k (env, .right)) = (s', List.replicate k .quiet) ∧
      Approves s' .both (.sign h d r (0x03 :: blob)) ∧
      ∀ e ∈ ui, ∀ text, e.message.head? = some text → ∃ title, e.title <+: title ∧
        Reads (((m.next cfg).trace cfg (List.replicate k (env, .right))).map fun x => x.st.zui.screen) title
          (dotted text) := by
  obtain ⟨_, _, _, _, _, -, hop, -, hmem⟩ := ho.memory
  have hw : (View.sign h d r (0x03 :: blob)).viewer env.cr (m.next cfg).upl.buf =
      ⟨numItemsOps (blob.drop 32), signOpItem env.cr (blob.take 32) (blob.drop 32)⟩ := hop.viewer_sign hmem env.cr
  refine C102_shown cfg m _ hs ho hon env hc _ hw.symm (fun hd num hn => signOpItem_end hn (hlarge hd)) ui hne ?_
  unfold testUi at hp
  cases hb : operationNew blob with
  | error e => rw [hb] at hp; cases hp
  | ok x =>
    obtain ⟨b, ops⟩ := x
    obtain ⟨-, rfl, rfl⟩ := operationNew_ok hb
    rw [hb, ← hc] at hp
    exact hp

/-- **C102**, the limits: whether a test passes does not depend on the texts after the first that are expected of an
item. -/
theorem C102_surplus (cr : Crypto) (v : View) (mem : SwapBuf) (w : Viewer) (hw : w = v.viewer cr mem)
    (hs : ∀ n f, w.item n = .ok f → f.text.length < 4095) (ui : List ExpectedPage) (more : ExpectedPage → List Bytes) :
    verifyUi w (ui.map fun e => { e with message := e.message ++ if e.message = [] then [] else more e }) =
      verifyUi w ui := by
  have hclean : w.Clean := hw ▸ C99_clean _ _ _
  have hh : ∀ e : ExpectedPage, (e.message ++ if e.message = [] then [] else more e).head? = e.message.head? := by
    intro e
    cases e.message <;> simp
  rw [Bool.eq_iff_iff, C102_tested w hclean hs, C102_tested w hclean hs]
  simp only [List.forall_mem_map, hh]

/-! ### Concrete cases -/

namespace Demo

set_option maxRecDepth 100000 in
/-- The hypotheses of `C102_sample`: a test of three items of a delegation passes, a new device with either display opens
its review, and there are less than 256 items. With another fee, or with an item too many, the test fails. -/
example :
    let ui : List ExpectedPage := [⟨1, ascii "Type", [ascii "Delegation"]⟩, ⟨4, ascii "Fee", [ascii "0.000001"]⟩,
      ⟨5, ascii "Gas", [ascii "3"]⟩]
    ui ≠ [] ∧ testUi fine.cr (delegation.drop 1) ui = true ∧
    testUi fine.cr (delegation.drop 1) [⟨4, ascii "Fee", [ascii "0.000002"]⟩] = false ∧
    testUi fine.cr (delegation.drop 1) (ui ++ [⟨8, ascii "Type", []⟩]) = false ∧
    ((parseOps (delegation.drop 33)).toOption.map totalItems) = some 8 ∧
    ∀ s ∈ [fresh, freshLarge],
      let s' := (s.run walletApp (ok [apdu 0x04 0 0 keyPath, apdu 0x04 0x81 0 delegation])).1
      s'.running = true ∧ isReview s'.zui.screen = true := by
  decide +kernel

set_option maxRecDepth 100000 in
/-- The limits of the tests: more texts than the item has pages, and any title without a text, pass unnoticed. -/
example :
    testUi fine.cr (delegation.drop 1) [⟨1, ascii "Type", [ascii "Delegation", ascii "Transaction"]⟩] = true ∧
    testUi fine.cr (delegation.drop 1) [⟨1, ascii "Amount", []⟩] = true ∧
    testUi fine.cr (delegation.drop 1) [⟨1, [], [ascii "Delegation"]⟩] = true := by
  decide +kernel

end Demo

end Tezos
