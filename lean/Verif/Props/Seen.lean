import Verif.Props.Approvals
import Verif.Props.Display
/-
C57 on the device: what was on the display when a signature was approved, for every history.
-/
set_option linter.unusedSimpArgs false
namespace Tezos
open Spec

/-! ### From items to what is read -/

/-- Characters the display has a picture for. -/
def Printable (t : Bytes) : Prop := ∀ c ∈ t, 32 ≤ c ∧ c ≤ 127

/-- The user has read the text under the title: it was on one screen as a whole (the larger display), or cut into pages,
each with its number in the title line where there is room for it. One page more than there is may be announced (see
C36). -/
def Reads (screens : List Screen) (title text : Bytes) : Prop :=
  .review title text [] ∈ screens ∨
  ∃ (pages : List Bytes) (n : Nat), pages ≠ [] ∧ pages.flatten = text ∧ pages.length ≤ n ∧ n ≤ pages.length + 1 ∧
    ∀ j p, pages[j]? = some p → ∃ l1 l2, .review (pageTitle title j n) l1 l2 ∈ screens ∧ l1 ++ l2 = p ∧
      l1.length ≤ 17 ∧ l2.length ≤ 17

theorem mem_visible {t : Bytes} {c : UInt8} (h : c ∈ visible t) : (c != 0) = true := by
  unfold visible at h
  induction t with
  | nil => cases h
  | cons a t ih =>
    rw [List.takeWhile_cons] at h
    split at h
    · rename_i ha
      rcases List.mem_cons.mp h with rfl | h
      · exact ha
      · exact ih h
    · cases h

theorem asciify_dotted (t : Bytes) : asciify t = dotted (visible t) := rfl

theorem asciify_append {a b : Bytes} (h : a = visible a) : asciify (a ++ b) = asciify a ++ asciify b := by
  have ha : ∀ c ∈ a, (c != 0) = true := by
    intro c hc
    rw [h] at hc
    exact mem_visible hc
  unfold asciify
  rw [List.takeWhile_append_of_pos ha, List.map_append]
  congr 1
  exact congrArg _ h

theorem visible_append_left {a b : Bytes} (h : a ++ b = visible (a ++ b)) : a = visible a := by
  refine (visible_of_no_nul fun c hc => ?_).symm
  have hc : c ∈ visible (a ++ b) := by rw [← h]; simp [hc]
  simpa using mem_visible hc

theorem visible_append_right {a b : Bytes} (h : a ++ b = visible (a ++ b)) : b = visible b := by
  refine (visible_of_no_nul fun c hc => ?_).symm
  have hc : c ∈ visible (a ++ b) := by rw [← h]; simp [hc]
  simpa using mem_visible hc

theorem asciify_nul : asciify [0] = [] := by decide

/-- Cut into pieces, a text that is all visible shows the same characters. -/
theorem asciify_pieces {l : List Bytes} (h : AllVisible l.flatten) : (l.map asciify).flatten = asciify l.flatten := by
  induction l with
  | nil => rfl
  | cons a l ih =>
    rw [List.map_cons, List.flatten_cons, List.flatten_cons]
    rw [List.flatten_cons] at h
    by_cases ha : a = visible a
    · rw [asciify_append ha]
      congr 1
      apply ih
      rcases h with h | h
      · exact .inl (visible_append_right h)
      · right
        have hv : visible (a ++ l.flatten) = a ++ visible l.flatten := by
          unfold visible at ha ⊢
          rw [List.takeWhile_append_of_pos]
          intro c hc
          rw [ha] at hc
          exact mem_visible hc
        rw [hv, List.append_assoc] at h
        exact List.append_cancel_left h
    · have hl : l.flatten = [] := by
        rcases h with h | h
        · exact absurd (visible_append_left h) ha
        · by_contra hne
          obtain ⟨r, x, hr⟩ := (List.eq_nil_or_concat l.flatten).resolve_left hne
          rw [List.concat_eq_append] at hr
          rw [hr, ← List.append_assoc] at h
          have hv := (List.append_inj' h rfl).1
          have hc : ∀ c ∈ a, c ≠ 0 := by
            intro c hc
            have : c ∈ visible (a ++ r ++ [x]) := by rw [← hv]; simp [hc]
            simpa using mem_visible this
          exact ha (visible_of_no_nul hc).symm
      have hm : (l.map asciify).flatten = [] := by
        rw [List.flatten_eq_nil_iff] at hl ⊢
        intro x hx
        obtain ⟨y, hy, rfl⟩ := List.mem_map.mp hx
        rw [hl y hy]
        rfl
      rw [hl, hm, List.append_nil, List.append_nil]

theorem printable_dotted {t : Bytes} (h : Printable t) : dotted t = t := by
  unfold dotted
  conv_rhs => rw [← List.map_id t]
  exact List.map_congr_left fun c hc => if_pos (h c hc)

theorem printable_no_nul {t : Bytes} (h : Printable t) : visible t = t :=
  visible_of_no_nul fun c hc h0 => by have := (h c hc).1; rw [h0] at this; exact absurd this (by decide)

theorem printable_asciify {t : Bytes} (h : Printable t) : asciify t = t := by
  rw [asciify_dotted, printable_no_nul h, printable_dotted h]

theorem announced_le (t : Bytes) : announcedPages t ≤ (pagesOf 34 t).length + 1 := by
  by_cases h : t = []
  · subst h; simp [pagesOf, announcedPages]
  · rw [pagesOf_length (by omega) h]
    unfold announcedPages; split <;> omega

/-- An item whose pages were all on the display has been read. -/
theorem reads_of_shown {screens : List Screen} {f : Field}
    (h : (∀ j < (pagesOf 34 f.text).length, ∃ s ∈ screens, ShowsPage f j s) ∨ ∃ s ∈ screens, ShowsWhole f s) (ha : AllVisible f.text)
    (ht : Printable f.title) : Reads screens f.title (dotted (visible f.text)) := by
  rcases h with h | ⟨s, hs, h⟩
  case inr =>
    left
    rw [h, printable_asciify ht, asciify_dotted] at hs
    exact hs
  right
  have hp := pagesOf_paging (m := 34) (by omega) f.text
  refine ⟨(pagesOf 34 f.text).map asciify, announcedPages f.text, by simpa using hp.nonempty, ?_, ?_, ?_, ?_⟩
  · have := hp.whole
    rw [asciify_pieces (by rw [this]; exact ha), this, asciify_dotted]
  · simpa using pagesOf_le_announced f.text
  · simpa using announced_le f.text
  · intro j p hj
    rw [List.getElem?_map, Option.map_eq_some_iff] at hj
    obtain ⟨q, hq, rfl⟩ := hj
    obtain ⟨s, hs, q', l1, l2, hq', rfl, hl, h1, h2⟩ := h j (List.getElem?_eq_some_iff.mp hq).1
    rw [hq] at hq'
    cases hq'
    rw [printable_asciify ht] at hs
    exact ⟨l1, l2, hs, hl, h1, h2⟩

/-! ### The texts are printable -/

theorem isDigit_printable {t : Bytes} (h : ∀ c ∈ t, isDigit c) : Printable t := by
  intro c hc
  have := h c hc
  unfold isDigit at this
  rw [UInt8.le_iff_toNat_le, UInt8.le_iff_toNat_le]
  simp only [UInt8.reduceToNat]
  omega

theorem letters_printable : Printable (ascii base58Letters) := by
  unfold Printable; decide +kernel

theorem IsBase58.printable {t b : Bytes} (h : IsBase58 t b) : Printable t := by
  obtain ⟨ds, h1, -, -⟩ := h
  intro c hc
  have : some c ∈ t.map some := List.mem_map_of_mem hc
  rw [h1] at this
  obtain ⟨d, _, hd⟩ := List.mem_map.mp this
  exact letters_printable c (List.mem_of_getElem? hd)

theorem IsBase58Check.printable {h : Hashes} {p b t : Bytes} (ht : IsBase58Check h p b t) : Printable t := by
  obtain ⟨_, _, _, _, h⟩ := ht
  exact IsBase58.printable h

theorem hexDigitValue_printable {c : UInt8} {n : Nat} (h : hexDigitValue c = some n) : 32 ≤ c ∧ c ≤ 127 := by
  unfold hexDigitValue at h
  rw [UInt8.le_iff_toNat_le, UInt8.le_iff_toNat_le]
  simp only [UInt8.reduceToNat]
  split at h
  · omega
  · split at h
    · omega
    · cases h

theorem readHex_printable {t d : Bytes} (h : readHex t = some d) : Printable t := by
  induction t using readHex.induct generalizing d with
  | case1 => intro c hc; cases hc
  | case2 => cases h
  | case3 a b r ih =>
    simp only [readHex, Option.bind_eq_bind, Option.bind_eq_some_iff, Option.pure_def, Option.some.injEq] at h
    obtain ⟨x, hx, y, hy, l, hl, -⟩ := h
    intro c hc
    rcases List.mem_cons.mp hc with rfl | hc
    · exact hexDigitValue_printable hx
    · rcases List.mem_cons.mp hc with rfl | hc
      · exact hexDigitValue_printable hy
      · exact ih hl c hc

/-- Every text is displayed as it is, except the names of bakers. -/
theorem Shown.printable {h : Hashes} {s : Shown} {t : Bytes} (ht : s.Text h t)
    (hw : ∀ w, s = .words w → Printable (ascii w)) :
    Printable t ∨ ∃ a, s = .baker a ∧ ∃ b ∈ knownBakers, t = b.name := by
  cases s with
  | words w => left; rw [show t = ascii w from ht]; exact hw w rfl
  | number n => exact .inl (isDigit_printable ht.2.1)
  | signed x =>
    left
    rcases ht with ⟨_, ht⟩ | ⟨_, r, rfl, ht⟩
    · exact isDigit_printable ht.2.1
    · intro c hc
      rcases List.mem_cons.mp hc with rfl | hc
      · decide
      · exact isDigit_printable ht.2.1 c hc
  | tez n =>
    left
    obtain ⟨i, f, rfl, -, hi, hf, -⟩ := ht
    intro c hc
    rcases List.mem_append.mp hc with hc | hc
    · exact isDigit_printable hi c hc
    · rcases List.mem_cons.mp hc with rfl | hc
      · decide
      · exact isDigit_printable hf c hc
  | account a => exact .inl (IsBase58Check.printable ht)
  | contract a => exact .inl (IsBase58Check.printable ht)
  | baker a =>
    rcases ht with ⟨b, hb, -, -, hn⟩ | ⟨-, ht⟩
    · exact .inr ⟨a, rfl, b, hb, hn⟩
    · exact .inl (IsBase58Check.printable ht)
  | key k b => exact .inl (IsBase58Check.printable ht)
  | block b => exact .inl (IsBase58Check.printable ht)
  | proposal b => exact .inl (IsBase58Check.printable ht)
  | chain b => exact .inl (IsBase58Check.printable ht)
  | level l => exact .inl (isDigit_printable ht.2.1)
  | digestOf d => obtain ⟨x, _, hx⟩ := ht; exact .inl (readHex_printable hx)
  | hex d => exact .inl (readHex_printable ht)
  | «opaque» d => obtain ⟨x, _, hx⟩ := ht; exact .inl (IsBase58Check.printable hx)

/-- The title and, if they are fixed, the words of an item are printable. -/
def Plain (e : String × Shown) : Prop := Printable (ascii e.1) ∧ ∀ w, e.2 = .words w → Printable (ascii w)

instance (t : Bytes) : Decidable (Printable t) := inferInstanceAs (Decidable (∀ c ∈ t, 32 ≤ c ∧ c ≤ 127))

theorem plain_text {title : String} {s : Shown} (h : Printable (ascii title)) (hs : ∀ w, s ≠ .words w) :
    Plain (title, s) := ⟨h, fun w hw => absurd hw (hs w)⟩

theorem plain_words {title w : String} (h : Printable (ascii title)) (hw : Printable (ascii w)) :
    Plain (title, .words w) := ⟨h, fun w' e => by cases e; exact hw⟩

/-- Closes goals about one item with a literal title. -/
local macro "plain" : tactic =>
  `(tactic| first
    | exact plain_words (by decide +kernel) (by decide +kernel)
    | exact plain_text (by decide +kernel) (fun _ h => by cases h))

theorem proposal_title_printable (k : Nat) (hk : k < 256) : Printable (ascii s!"Proposal #{k + 1}") := by
  rw [proposal_title k hk]
  intro c hc
  rcases List.mem_append.mp hc with hc | hc
  · exact (by decide +kernel : Printable (ascii "Proposal #")) c hc
  · exact isDigit_printable (decimal_isDigit _) c hc

theorem Operation.review_plain (o : Operation) (hn : o.review.length < 256) : ∀ e ∈ o.review, Plain e := by
  cases o with
  | proposals s p ps =>
    intro e he
    simp only [Operation.review, List.mem_append, List.mem_cons, List.not_mem_nil, or_false, List.mem_map] at he
    rcases he with (rfl | rfl | rfl) | ⟨⟨x, i⟩, hx, rfl⟩
    · plain
    · plain
    · plain
    · have hi := (List.mem_zipIdx' hx).1
      simp [Operation.review] at hn
      exact plain_text (proposal_title_printable i (by omega)) (fun _ h => by cases h)
  | transfer m amount dest call =>
    cases dest <;> cases call <;>
    · simp only [Operation.review, List.forall_mem_cons, Option.isSome]
      refine ⟨?_, ?_, ?_, ?_, ?_, ?_, ?_, ?_, ?_, fun _ h => by cases h⟩ <;> plain
  | origination m balance delegate code storage =>
    cases delegate <;>
    · simp only [Operation.review, List.forall_mem_cons, Option.isSome]
      refine ⟨?_, ?_, ?_, ?_, ?_, ?_, ?_, ?_, ?_, ?_, fun _ h => by cases h⟩ <;> plain
  | delegation m delegate =>
    cases delegate <;>
    · simp only [Operation.review, List.forall_mem_cons, Option.isSome]
      refine ⟨?_, ?_, ?_, ?_, ?_, ?_, ?_, fun _ h => by cases h⟩ <;> plain
  | ballot s p h v =>
    cases v <;>
    · simp only [Operation.review, List.forall_mem_cons]
      refine ⟨?_, ?_, ?_, ?_, ?_, fun _ h => by cases h⟩ <;> plain
  | reveal m k key =>
    simp only [Operation.review, List.forall_mem_cons]
    refine ⟨?_, ?_, ?_, ?_, ?_, ?_, ?_, fun _ h => by cases h⟩ <;> plain
  | endorsementWithSlot e s =>
    simp only [Operation.review, List.forall_mem_cons]
    refine ⟨?_, ?_, ?_, ?_, ?_, fun _ h => by cases h⟩ <;> plain
  | endorsement l =>
    simp only [Operation.review, List.forall_mem_cons]
    refine ⟨?_, ?_, fun _ h => by cases h⟩ <;> plain
  | failingNoop d =>
    simp only [Operation.review, List.forall_mem_cons]
    refine ⟨?_, ?_, fun _ h => by cases h⟩ <;> plain
  | activateAccount h s =>
    simp only [Operation.review, List.forall_mem_cons]
    refine ⟨?_, ?_, ?_, fun _ h => by cases h⟩ <;> plain
  | _ => intro e he; cases he

theorem batchReview_plain {branch : Bytes} {os : List Operation} {rest : Bytes}
    (hn : (batchReview branch os rest).length < 256) : ∀ e ∈ batchReview branch os rest, Plain e := by
  intro e he
  rw [batchReview] at he
  rcases List.mem_cons.mp he with rfl | he
  · plain
  · rcases List.mem_append.mp he with he | he
    · obtain ⟨o, ho, he⟩ := List.mem_flatMap.mp he
      refine Operation.review_plain o ?_ e he
      have : o.review.length ≤ (os.flatMap Operation.review).length := by
        rw [List.length_flatMap]
        exact mem_sum_le (List.mem_map_of_mem ho)
      simp only [batchReview, List.length_cons, List.length_append] at hn
      omega
    · cases rest with
      | nil => cases he
      | cons t r =>
        simp only [opaqueReview, List.mem_cons, List.not_mem_nil, or_false] at he
        rcases he with rfl | rfl <;> plain

/-! ### The device -/

/-- What the user read of one item: its title, and a text that says what it must; the names of bakers may have dots in
place of characters that are not ASCII. -/
def UserRead (h : Hashes) (screens : List Screen) (e : String × Shown) : Prop :=
  ∃ text, e.2.Text h text ∧ Reads screens (ascii e.1) (dotted text) ∧
    (dotted text = text ∨ ∃ a, e.2 = .baker a ∧ ∃ b ∈ knownBakers, text = b.name)

theorem userRead_of_shown {h : Hashes} {screens : List Screen} {e : String × Shown} {f : Field} (hp : Plain e)
    (hm : Matches h e f) (hs : (∀ j < (pagesOf 34 f.text).length, ∃ s ∈ screens, ShowsPage f j s) ∨
      ∃ s ∈ screens, ShowsWhole f s) :
    UserRead h screens e := by
  have hr := reads_of_shown hs hm.all (by rw [hm.title]; exact hp.1)
  rw [hm.title] at hr
  refine ⟨_, hm.text, hr, ?_⟩
  rcases Shown.printable hm.text hp.2 with h | h
  · exact .inl (printable_dotted h)
  · exact .inr h

theorem AllDisplayed.read {cr : Crypto} {w : Viewer} {states : List Moment} (h : AllDisplayed w states)
    {items : List (String × Shown)} (hl : items.length < 256) (hnum : w.numItems = .ok (UInt8.ofNat items.length))
    (hp : ∀ e ∈ items, Plain e) (hi : ∀ (n : Nat) e, items[n]? = some e → Renders cr (w.item (UInt8.ofNat n)) e) :
    ∀ e ∈ items, UserRead cr.hashes (states.map (·.st.zui.screen)) e := by
  intro e he
  obtain ⟨num, hn, hall⟩ := h
  rw [hnum] at hn
  cases hn
  obtain ⟨n, hn⟩ := List.mem_iff_getElem?.mp he
  have hlt := (List.getElem?_eq_some_iff.mp hn).1
  obtain ⟨f, hf, -, hs⟩ := hall n (by simp only [UInt8.toNat_ofNat']; omega)
  refine userRead_of_shown (hp e he) ((hi n e hn).correct f hf) ?_
  rcases hs with hs | ⟨y, hy, h⟩
  · refine .inl fun j hj => ?_
    obtain ⟨y, hy, h⟩ := hs j hj
    exact ⟨_, List.mem_map.mpr ⟨y, hy, rfl⟩, h⟩
  · exact .inr ⟨_, List.mem_map.mpr ⟨y, hy, rfl⟩, h⟩

/-- **C57** on the device. In every history, when a signature is given for a batch of operations, then the review that
was approved had been opened by an earlier request, no other was opened since, and if the host sent no packet of a signing
command in between, and expert mode was off or the display is the larger one, the user had read every item that the batch
must show, each under its title; in the baking build it may be only those of the first operation. -/
theorem C57_user_read_the_batch (cfg : Config) (new : NewDevice) (es : List (Env × Event))
    (past future : List Moment) (m : Moment) (h : (Dev.factory new).trace cfg es = past ++ m :: future) (x : SigRec)
    (hx : m.out.sig = some x) (cr : Crypto) (hs : cr.Sized) (hcr : ∀ e ∈ es, e.1.cr = cr) (branch : Bytes)
    (hb : branch.length = 32) (os : List Operation) (hv : ∀ o ∈ os, o.Valid) (rest : Bytes) (hr : IsOpaque rest)
    (hn : (batchReview branch os rest).length < 256)
    (hmsg : x.msg = 0x03 :: (branch ++ (os.flatMap Operation.encode ++ rest))) :
    ∃ a m0 b, past = a ++ m0 :: b ∧ (∃ v, m0.Opens cfg v) ∧ (∀ y ∈ b, ∀ w, ¬ y.Opens cfg w) ∧
      ((∀ y ∈ b, y.ev.packet cfg.build = none ∧ y.st.zui.Plain) →
        ∃ items, (items = batchReview branch os rest ∨
            cfg.build = .baking ∧ ∃ o os', os = o :: os' ∧ items = batchReview branch [o] []) ∧
          ∀ e ∈ items, UserRead cr.hashes ((b ++ [m]).map (·.st.zui.screen)) e) := by
  obtain ⟨a, m0, b, hpast, hop, hno, -, hsaw⟩ := C42_user_saw_the_message_partial cfg new es past future m h x hx
    (by rw [hmsg]; rfl) cr hs hcr
  refine ⟨a, m0, b, hpast, hop, hno, fun hbb => ?_⟩
  obtain ⟨w, hw, hall⟩ := hsaw hbb
  have htake : (branch ++ (os.flatMap Operation.encode ++ rest)).take 32 = branch := by
    rw [← hb]; exact List.take_left
  have hdrop : (branch ++ (os.flatMap Operation.encode ++ rest)).drop 32 = os.flatMap Operation.encode ++ rest := by
    rw [← hb]; exact List.drop_left
  obtain ⟨hnum, hitems⟩ := C57_review cr branch hb os hv rest hr hn
  cases hw with
  | whole =>
    refine ⟨_, .inl rfl, hall.read hn ?_ (batchReview_plain hn) ?_⟩
    · rw [hmsg]
      simp only [reviewOf, hdrop]
      exact hnum
    · intro n e he
      rw [hmsg]
      simp only [reviewOf, hdrop, htake]
      exact hitems n e he
  | first hbld rem r op hm hl hnext hop =>
    rw [hmsg] at hm
    obtain ⟨-, rfl⟩ := List.cons.inj hm
    rw [hdrop] at hnext
    rw [htake] at hall
    cases os with
    | nil =>
      cases rest with
      | nil => cases hnext
      | cons t r' =>
        rw [List.flatMap_nil, List.nil_append, parseNext_of (fromBytes_opaque hr)] at hnext
        simp only [Except.ok.injEq, Option.some.injEq, Prod.mk.injEq] at hnext
        obtain ⟨-, rfl⟩ := hnext
        rcases hop with ⟨_, h⟩ | ⟨_, h⟩ <;> cases h
    | cons o os =>
      have hd := C31_decode_encode o (hv o (by simp)) (os.flatMap Operation.encode ++ rest)
      rw [List.flatMap_cons, List.append_assoc, parseNext_of hd] at hnext
      simp only [Except.ok.injEq, Option.some.injEq, Prod.mk.injEq] at hnext
      obtain ⟨-, rfl⟩ := hnext
      have hle : (batchReview branch [o] []).length < 256 := by
        simp only [batchReview, List.length_cons, List.length_append, List.flatMap_cons, List.flatMap_nil, opaqueReview,
          List.length_nil] at hn ⊢
        omega
      have hlen : (batchReview branch [o] []).length = (Op.ofSpec o).uiItems + 1 := by
        simp [batchReview, opaqueReview, Op.uiItems_review]
      refine ⟨_, .inr ⟨hbld, o, os, rfl, rfl⟩, hall.read hle ?_ (batchReview_plain hle) ?_⟩
      · rw [hlen]; rfl
      · intro n e he
        cases n with
        | zero =>
          cases he
          exact (rendersText_branch (cr := cr) hb).item "Operation"
        | succ n =>
          have hlt := (List.getElem?_eq_some_iff.mp he).1
          have hto : (UInt8.ofNat (n + 1)).toNat = n + 1 := by simp only [UInt8.toNat_ofNat']; omega
          have hne : UInt8.ofNat (n + 1) ≠ 0 := by intro h; rw [h] at hto; simp at hto
          have hsub : (UInt8.ofNat (n + 1) - 1).toNat = n := by
            rw [UInt8.toNat_sub_of_le _ _ (by rw [UInt8.le_iff_toNat_le, hto]; simp), hto]; rfl
          simp only [firstOpReview, if_neg hne, hsub]
          refine C57_operation_items cr o (hv o (by simp)) ?_ n e ?_
          · rw [← Op.uiItems_review]; omega
          · simpa [batchReview, opaqueReview] using he

/-- **C57** for Michelson data: the user had read its digest in hexadecimal. -/
theorem C57_user_read_the_digest (cfg : Config) (new : NewDevice) (es : List (Env × Event))
    (past future : List Moment) (m : Moment) (h : (Dev.factory new).trace cfg es = past ++ m :: future) (x : SigRec)
    (hx : m.out.sig = some x) (cr : Crypto) (hs : cr.Sized) (hcr : ∀ e ∈ es, e.1.cr = cr)
    (hmsg : x.msg.head? = some 0x05) :
    cr.blake2b 32 x.msg = some x.digest ∧
    ∃ a m0 b, past = a ++ m0 :: b ∧ (∃ v, m0.Opens cfg v) ∧ (∀ y ∈ b, ∀ w, ¬ y.Opens cfg w) ∧
      ((∀ y ∈ b, y.ev.packet cfg.build = none ∧ y.st.zui.Plain) →
        ∃ text, readHex text = some x.digest ∧
          Reads ((b ++ [m]).map (·.st.zui.screen)) (ascii "Sign Michelson") text) := by
  have h3 : ∃ r, x.msg = 0x05 :: r := by
    cases hm : x.msg with
    | nil => rw [hm] at hmsg; cases hmsg
    | cons c r => rw [hm] at hmsg; cases hmsg; exact ⟨r, rfl⟩
  obtain ⟨r, hr⟩ := h3
  obtain ⟨a, m0, b, hpast, hop, hno, hdig, hsaw⟩ := C42_user_saw_the_message_partial cfg new es past future m h x hx
    (by rw [hr]; rfl) cr hs hcr
  refine ⟨hdig, a, m0, b, hpast, hop, hno, fun hbb => ?_⟩
  obtain ⟨w, hw, hall⟩ := hsaw hbb
  cases hw with
  | whole =>
    have := hall.read (cr := cr) (items := [("Sign Michelson", .hex x.digest)]) (by simp) (by rw [hr]; rfl)
      (by intro e he; rw [List.mem_singleton.mp he]; plain) (by
        intro n e he
        match n, he with
        | 0, he =>
          cases he
          rw [hr]
          exact renders_const (by rw [hex_visible]; exact readHex_encode _) (.inl (hex_visible _).symm) trivial)
    obtain ⟨text, ht, hrd, -⟩ := this ("Sign Michelson", .hex x.digest) (by simp)
    have ht : readHex text = some x.digest := ht
    refine ⟨text, ht, ?_⟩
    rw [printable_dotted (readHex_printable ht)] at hrd
    exact hrd
  | first hbld rem r' op hm =>
    rw [hr] at hm
    cases hm

namespace Demo

/-- The operation in `delegation`. -/
def delegationOp : Operation :=
  .delegation ⟨⟨.ed25519, List.replicate 20 0⟩, 1, 2, 3, 4⟩ (some ⟨.ed25519, List.replicate 20 0⟩)

theorem delegation_encode :
    0x03 :: (List.replicate 32 5 ++ ([delegationOp].flatMap Operation.encode ++ [])) = delegation := by
  simp [delegationOp, Operation.encode, ManagerFields.encode, zarithEncode, delegation, encodeOption, Account.encode,
    List.replicate]
  decide

set_option maxRecDepth 100000 in
/-- The hypotheses of the theorem: a delegation is signed, and some of what the user read. -/
example :
    let t := fresh.trace walletApp (signReview 0x04 delegation 11)
    delegationOp.Valid ∧ (batchReview (List.replicate 32 5) [delegationOp] []).length = 8 ∧
    (t[13]?.bind fun m => m.out.sig.map SigRec.msg) =
      some (0x03 :: (List.replicate 32 5 ++ ([delegationOp].flatMap Operation.encode ++ []))) ∧
    ((t.drop 2).map fun m => decide (m.ev.packet walletApp.build = none ∧ m.st.zui.Plain)) =
      List.replicate 12 true ∧
    (t[2]?.map fun m => m.st.zui.screen) =
      some (.review (ascii "Operation [1/2]") (ascii "BKkVZ8SigP89Xpt4n") (ascii "QsGLhUpzdEikCQZFv")) ∧
    (t[4]?.map fun m => m.st.zui.screen) = some (.review (ascii "Type") (ascii "Delegation") []) ∧
    (t[9]?.map fun m => m.st.zui.screen) = some (.review (ascii "Fee") (ascii "0.000001") []) := by
  rw [delegation_encode]
  refine ⟨by simp [delegationOp, Operation.Valid, Account.Valid, validOption], by decide +kernel, ?_⟩
  decide +kernel

set_option maxRecDepth 100000 in
/-- The same for Michelson data. -/
example :
    let t := fresh.trace walletApp (signReview 0x04 [0x05, 1, 2] 2)
    (t[4]?.bind fun m => m.out.sig.map SigRec.msg) = some [0x05, 1, 2] := by
  decide +kernel

end Demo

end Tezos
