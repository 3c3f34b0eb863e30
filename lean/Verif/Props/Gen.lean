import Verif.Props.Zuit
import Verif.Props.Seen
import Verif.Props.Unroll
import Verif.Spec.Forging
/-
C107: which display tests of the repository pass, and that those made by the generators do.
-/
namespace Tezos
open Spec

/-! ### There is one text for a meaning -/

theorem textValue_digits (t : Bytes) : textValue t = Nat.ofDigits 10 (t.map fun c => c.toNat - 48).reverse := by
  unfold textValue
  suffices ∀ a : Nat, t.foldl (fun a c => a * 10 + (c.toNat - 48)) a =
      a * 10 ^ t.length + Nat.ofDigits 10 (t.map fun c => c.toNat - 48).reverse by simpa using this 0
  induction t with
  | nil => intro a; simp
  | cons c t ih =>
    intro a
    rw [List.foldl_cons, ih, List.map_cons, List.reverse_cons, Nat.ofDigits_append, Nat.ofDigits_singleton,
      List.length_reverse, List.length_map, List.length_cons]
    ring

theorem digits_map_inj {s t : Bytes} (hs : ∀ c ∈ s, isDigit c) (ht : ∀ c ∈ t, isDigit c)
    (h : (s.map fun c => c.toNat - 48) = t.map fun c => c.toNat - 48) : s = t :=
  map_inj_on isDigit (fun {a b} ha hb e => UInt8.toNat_inj.mp (by unfold isDigit at ha hb; omega)) hs ht h

/-- Digit texts of one length with one value are equal. -/
theorem digits_unique {s t : Bytes} (hs : ∀ c ∈ s, isDigit c) (ht : ∀ c ∈ t, isDigit c) (hl : s.length = t.length)
    (h : textValue s = textValue t) : s = t := by
  rw [textValue_digits, textValue_digits] at h
  have lt : ∀ {u : Bytes}, (∀ c ∈ u, isDigit c) → ∀ x ∈ (u.map fun c => c.toNat - 48).reverse, x < 10 := by
    intro u hu x hx
    simp only [List.mem_reverse, List.mem_map] at hx
    obtain ⟨c, hc, rfl⟩ := hx
    have := hu c hc
    unfold isDigit at this
    omega
  exact digits_map_inj hs ht (List.reverse_injective
    (Nat.ofDigits_inj_of_len_eq (by omega) (by simpa using hl) (lt hs) (lt ht) h))

theorem textValue_lt {t : Bytes} (h : ∀ c ∈ t, isDigit c) : textValue t < 10 ^ t.length := by
  rw [textValue_digits]
  have := Nat.ofDigits_lt_base_pow_length (b := 10) (l := (t.map fun c => c.toNat - 48).reverse) (by omega) (by
    intro x hx
    simp only [List.mem_reverse, List.mem_map] at hx
    obtain ⟨c, hc, rfl⟩ := hx
    have := h c hc
    unfold isDigit at this
    omega)
  simpa using this

theorem textValue_cons (c : UInt8) (t : Bytes) : textValue (c :: t) = (c.toNat - 48) * 10 ^ t.length + textValue t := by
  rw [textValue_digits, textValue_digits, List.map_cons, List.reverse_cons, Nat.ofDigits_append, Nat.ofDigits_singleton,
    List.length_reverse, List.length_map]
  ring

/-- The length of a number without superfluous zeros is determined. -/
theorem IsDecimal.length_le {s t : Bytes} {n : Nat} (hs : IsDecimal s n) (ht : IsDecimal t n) :
    s.length ≤ t.length := by
  obtain ⟨h1, h2, h3, h4⟩ := hs
  have hlt := textValue_lt ht.2.1
  have hpos : 0 < t.length := List.length_pos_iff.mpr ht.1
  cases s with
  | nil => exact absurd rfl h1
  | cons c s =>
    by_cases hc : c = 48
    · subst hc
      have := h3 s rfl
      subst this
      simp only [List.length_cons, List.length_nil]
      omega
    · have hd := h2 c (by simp)
      have hpc : 1 ≤ c.toNat - 48 := by
        have : c.toNat ≠ 48 := fun h => hc (UInt8.toNat_inj.mp h)
        unfold isDigit at hd
        omega
      rw [textValue_cons] at h4
      rw [ht.2.2.2, ← h4] at hlt
      have h5 : 10 ^ s.length ≤ (c.toNat - 48) * 10 ^ s.length := Nat.le_mul_of_pos_left _ hpc
      have h6 : 10 ^ s.length < 10 ^ t.length := by omega
      have := (Nat.pow_lt_pow_iff_right (a := 10) (by omega)).mp h6
      simpa using this

theorem IsDecimal.unique {s t : Bytes} {n : Nat} (hs : IsDecimal s n) (ht : IsDecimal t n) : s = t :=
  digits_unique hs.2.1 ht.2.1 (Nat.le_antisymm (IsDecimal.length_le hs ht) (IsDecimal.length_le ht hs))
    (hs.2.2.2.trans ht.2.2.2.symm)

theorem IsSigned.unique {s t : Bytes} {x : UInt32} (hs : IsSigned s x) (ht : IsSigned t x) : s = t := by
  rcases hs with ⟨h1, hs⟩ | ⟨h1, s', rfl, hs⟩ <;> rcases ht with ⟨h2, ht⟩ | ⟨h2, t', rfl, ht⟩
  · exact IsDecimal.unique hs ht
  · omega
  · omega
  · rw [IsDecimal.unique hs ht]

theorem IsFixedPoint.unique {d : Nat} {s t : Bytes} {n : Nat} (hs : IsFixedPoint d s n) (ht : IsFixedPoint d t n) :
    s = t := by
  obtain ⟨i, f, rfl, hl, hi, hf, hne, hz, hv⟩ := hs
  obtain ⟨i', f', rfl, hl', hi', hf', hne', hz', hv'⟩ := ht
  have h1 := textValue_lt hf
  have h2 := textValue_lt hf'
  rw [hl] at h1
  rw [hl'] at h2
  have e1 : textValue i = textValue i' := by
    have a1 : (textValue i * 10 ^ d + textValue f) / 10 ^ d = textValue i := by
      rw [Nat.add_comm, Nat.add_mul_div_right _ _ (by positivity), Nat.div_eq_of_lt h1, Nat.zero_add]
    have a2 : (textValue i' * 10 ^ d + textValue f') / 10 ^ d = textValue i' := by
      rw [Nat.add_comm, Nat.add_mul_div_right _ _ (by positivity), Nat.div_eq_of_lt h2, Nat.zero_add]
    rw [← a1, ← a2, hv, hv']
  have e2 : textValue f = textValue f' := by rw [e1] at hv; omega
  rw [IsDecimal.unique (n := textValue i) ⟨hne, hi, hz, rfl⟩ ⟨hne', hi', hz', e1.symm⟩,
    digits_unique hf hf' (hl.trans hl'.symm) e2]

theorem hexDigitValue_unique {c c' : UInt8} {n n' : Nat} (h : hexDigitValue c = some n)
    (h' : hexDigitValue c' = some n') (he : n = n') : c = c' := by
  subst he
  unfold hexDigitValue at h h'
  apply UInt8.toNat_inj.mp
  split at h <;> split at h'
  · simp only [Option.some.injEq] at h h'; omega
  · split at h'
    · simp only [Option.some.injEq] at h h'; omega
    · cases h'
  · split at h
    · simp only [Option.some.injEq] at h h'; omega
    · cases h
  · split at h <;> split at h'
    · simp only [Option.some.injEq] at h h'; omega
    · cases h'
    · cases h
    · cases h

theorem hexDigitValue_lt {c : UInt8} {n : Nat} (h : hexDigitValue c = some n) : n < 16 := by
  unfold hexDigitValue at h
  split at h
  · simp only [Option.some.injEq] at h; omega
  · split at h
    · simp only [Option.some.injEq] at h; omega
    · cases h

theorem readHex_unique {s t d : Bytes} (hs : readHex s = some d) (ht : readHex t = some d) : s = t := by
  induction s using readHex.induct generalizing t d with
  | case1 =>
    cases hs
    match t, ht with
    | [], _ => rfl
    | a :: b :: r, ht => simp [readHex, Option.bind_eq_some_iff] at ht
  | case2 => cases hs
  | case3 a b r ih =>
    simp only [readHex, Option.bind_eq_bind, Option.bind_eq_some_iff, Option.pure_def, Option.some.injEq] at hs
    obtain ⟨x, hx, y, hy, l, hl, rfl⟩ := hs
    match t, ht with
    | [], ht => simp [readHex] at ht
    | a' :: b' :: r', ht =>
      simp only [readHex, Option.bind_eq_bind, Option.bind_eq_some_iff, Option.pure_def, Option.some.injEq,
        List.cons.injEq] at ht
      obtain ⟨x', hx', y', hy', l', hl', he, rfl⟩ := ht
      have b1 := hexDigitValue_lt hx
      have b2 := hexDigitValue_lt hy
      have b3 := hexDigitValue_lt hx'
      have b4 := hexDigitValue_lt hy'
      have he' := congrArg UInt8.toNat he
      simp only [UInt8.toNat_ofNat'] at he'
      rw [hexDigitValue_unique hx hx' (by omega), hexDigitValue_unique hy hy' (by omega), ih hl hl']

theorem IsBase58Check.unique {h : Hashes} {p b s t : Bytes} (hs : IsBase58Check h p b s) (ht : IsBase58Check h p b t) :
    s = t := by
  obtain ⟨d1, d2, h1, h2, h3⟩ := hs
  obtain ⟨d1', d2', h1', h2', h3'⟩ := ht
  rw [h1] at h1'
  cases h1'
  rw [h2] at h2'
  cases h2'
  rw [IsBase58.unique h3, IsBase58.unique h3']

/-- **C107**, one text: what an item of a review means determines its text, unless it is a baker with two names. -/
theorem C107_one_text {h : Hashes} {x : Shown} (hx : x.OneName) {s t : Bytes} (hs : x.Text h s) (ht : x.Text h t) :
    s = t := by
  cases x with
  | words w => exact hs.trans ht.symm
  | number n => exact IsDecimal.unique hs ht
  | signed x => exact IsSigned.unique hs ht
  | tez n => exact IsFixedPoint.unique hs ht
  | account a => exact IsBase58Check.unique hs ht
  | contract a => exact IsBase58Check.unique hs ht
  | baker a =>
    rcases hs with ⟨b, hb, h1, h2, rfl⟩ | ⟨hs, h1⟩ <;> rcases ht with ⟨c, hc, h3, h4, rfl⟩ | ⟨ht, h3⟩
    · exact hx b hb c hc h1 h2 h3 h4
    · exact absurd ⟨h1, h2⟩ (ht b hb)
    · exact absurd ⟨h3, h4⟩ (hs c hc)
    · exact IsBase58Check.unique h1 h3
  | key k b => exact IsBase58Check.unique hs ht
  | block b => exact IsBase58Check.unique hs ht
  | proposal b => exact IsBase58Check.unique hs ht
  | chain b => exact IsBase58Check.unique hs ht
  | level l => exact IsDecimal.unique hs ht
  | digestOf d =>
    obtain ⟨x, h1, h2⟩ := hs
    obtain ⟨y, h3, h4⟩ := ht
    rw [h1] at h3
    cases h3
    exact readHex_unique h2 h4
  | hex d => exact readHex_unique hs ht
  | «opaque» d =>
    obtain ⟨x, h1, h2⟩ := hs
    obtain ⟨y, h3, h4⟩ := ht
    rw [h1] at h3
    cases h3
    exact IsBase58Check.unique h2 h4

/-- The only account that is registered twice, with names that differ. -/
def twiceNamed : Account :=
  ⟨.ed25519, [28, 108, 205, 152, 237, 100, 255, 100, 220, 1, 101, 10, 52, 249, 54, 21, 112, 99, 57, 92]⟩

theorem knownBakers_twice : ∀ b ∈ knownBakers, ∀ c ∈ knownBakers, b.pfx = c.pfx → b.hash = c.hash →
    b.name = c.name ∨ (b.pfx = twiceNamed.kind.addressPrefix ∧ b.hash = twiceNamed.hash) := by decide +kernel

/-- **C107**, one text: only one account has two names. -/
theorem C107_one_name (x : Shown) : x.OneName ↔ x ≠ .baker twiceNamed := by
  constructor
  · rintro h rfl
    exact absurd h (by show ¬ ∀ b ∈ knownBakers, _; decide +kernel)
  · intro hx
    cases x with
    | baker a =>
      intro b hb c hc h1 h2 h3 h4
      rcases knownBakers_twice b hb c hc (h1.trans h3.symm) (h2.trans h4.symm) with h | ⟨h5, h6⟩
      · exact h
      · exfalso
        apply hx
        rw [h1] at h5
        rw [h2] at h6
        have hk : a.kind = twiceNamed.kind := by
          cases hk : a.kind <;> rw [hk] at h5 <;> revert h5 <;> decide
        cases a
        simp only at hk h6
        subst hk
        subst h6
        rfl
    | _ => trivial

/-! ### Which display tests pass -/

theorem knownBakers_utf8 : ∀ b ∈ knownBakers, isUtf8 b.name = true := by decide +kernel

theorem Printable.utf8 {t : Bytes} (h : Printable t) : isUtf8 t = true :=
  Ascii7.utf8 fun c hc => by
    have := (h c hc).2
    rw [UInt8.le_iff_toNat_le] at this
    rw [UInt8.lt_iff_toNat_lt]
    simp only [UInt8.reduceToNat] at this ⊢
    omega

theorem shown_utf8 {h : Hashes} {e : String × Shown} (hp : Plain e) {t : Bytes} (ht : e.2.Text h t) :
    isUtf8 t = true := by
  rcases Shown.printable ht hp.2 with hp | ⟨a, -, b, hb, rfl⟩
  · exact hp.utf8
  · exact knownBakers_utf8 b hb

/-- A display test of a batch of valid operations looks at the items of the review. -/
theorem testUi_batch (cr : Crypto) (hw : cr.Works) (branch : Bytes) (hb : branch.length = 32) (os : List Operation)
    (hv : ∀ o ∈ os, o.Valid) (rest : Bytes) (hr : IsOpaque rest) (hn : (batchReview branch os rest).length < 256)
    (ui : List ExpectedPage) :
    testUi cr (branch ++ (os.flatMap Operation.encode ++ rest)) ui = true ↔
      (∀ e ∈ batchReview branch os rest, e.2.Readable) ∧
      ∀ p ∈ ui, ∃ e, (batchReview branch os rest)[p.idx]? = some e ∧
        ∃ f, signOpItem cr branch (os.flatMap Operation.encode ++ rest) (UInt8.ofNat p.idx) = .ok f ∧
          Matches cr.hashes e f ∧
          ∀ text, p.message.head? = some text → p.title <+: ascii e.1 ∧ text = visible f.text := by
  obtain ⟨hnum, hrend⟩ := C57_review cr branch hb os hv rest hr hn
  have hplain := batchReview_plain hn
  have hto : (UInt8.ofNat (batchReview branch os rest).length).toNat = (batchReview branch os rest).length := by
    simp only [UInt8.toNat_ofNat']; omega
  have hnew : operationNew (branch ++ (os.flatMap Operation.encode ++ rest)) =
      .ok (branch, os.flatMap Operation.encode ++ rest) := by
    unfold operationNew
    rw [nTake_append' hb]
    rfl
  unfold testUi
  rw [hnew]
  generalize hB : batchReview branch os rest = B at *
  generalize os.flatMap Operation.encode ++ rest = i at *
  show verifyUi ⟨numItemsOps i, signOpItem cr branch i⟩ ui = true ↔ _
  have hshort : ∀ n f, signOpItem cr branch i n = .ok f → f.text.length < 4095 := by
    intro n f hf
    have := reviewOf_short hw.sized (List.length_replicate (n := 32) (a := (0 : UInt8))) (0x03 :: (branch ++ i)) n f (by
      rw [reviewOf_batch cr _ hb]
      exact hf)
    omega
  rw [C102_tested _ (fun n f hf => signOpItem_clean cr branch i n f hf) hshort]
  simp only [hnum, Except.ok.injEq, exists_eq_left', hto]
  constructor
  · rintro ⟨h1, h2⟩
    refine ⟨fun e he => ?_, fun p hp => ?_⟩
    · obtain ⟨k, hk, rfl⟩ := List.getElem_of_mem he
      obtain ⟨f, hf, -⟩ := h1 k hk
      exact ((hrend k _ (List.getElem?_eq_getElem hk)).shown hw).mp ⟨f, hf⟩
    · obtain ⟨hlt, f, hf, ht⟩ := h2 p hp
      have hm := (hrend _ _ (List.getElem?_eq_getElem hlt)).correct f hf
      refine ⟨_, List.getElem?_eq_getElem hlt, f, hf, hm, fun text htext => ?_⟩
      obtain ⟨ht1, ht2⟩ := ht text htext
      rw [hm.title] at ht1
      exact ⟨ht1, ht2⟩
  · rintro ⟨h1, h2⟩
    refine ⟨fun k hk => ?_, fun p hp => ?_⟩
    · have hr := hrend k _ (List.getElem?_eq_getElem hk)
      obtain ⟨f, hf⟩ := (hr.shown hw).mpr (h1 _ (List.getElem_mem hk))
      exact ⟨f, hf, shown_utf8 (hplain _ (List.getElem_mem hk)) (hr.correct f hf).text⟩
    · obtain ⟨e, he, f, hf, hm, ht⟩ := h2 p hp
      obtain ⟨hlt, rfl⟩ := List.getElem?_eq_some_iff.mp he
      refine ⟨hlt, f, hf, fun text htext => ?_⟩
      rw [hm.title]
      exact ht text htext

/-- **C107.** A display test of a batch of valid operations with less than 256 items passes exactly if the device can
display all items, and the expectations are right: every item that the test expects is there, its title starts as
expected, and the first text expected is a text for what this item must say. Which tests pass is so determined by the
operations of the protocol, without looking at the app. A baker with two names is excluded. -/
theorem C107_tests (cr : Crypto) (hw : cr.Works) (branch : Bytes) (hb : branch.length = 32) (os : List Operation)
    (hv : ∀ o ∈ os, o.Valid) (rest : Bytes) (hr : IsOpaque rest) (hn : (batchReview branch os rest).length < 256)
    (hone : .baker twiceNamed ∉ (batchReview branch os rest).map Prod.snd) (ui : List ExpectedPage) :
    testUi cr (branch ++ (os.flatMap Operation.encode ++ rest)) ui = true ↔
      (∀ e ∈ batchReview branch os rest, e.2.Readable) ∧
      ∀ p ∈ ui, ∃ e, (batchReview branch os rest)[p.idx]? = some e ∧
        ∀ text, p.message.head? = some text → p.title <+: ascii e.1 ∧ e.2.Text cr.hashes text := by
  rw [testUi_batch cr hw branch hb os hv rest hr hn]
  refine and_congr_right fun h1 => forall₂_congr fun p _ => exists_congr fun e => and_congr_right fun he => ?_
  constructor
  · rintro ⟨f, -, hm, ht⟩ text htext
    obtain ⟨ht1, rfl⟩ := ht text htext
    exact ⟨ht1, hm.text⟩
  · intro ht
    have hmem := List.mem_of_getElem? he
    have hr := (C57_review cr branch hb os hv rest hr hn).2 _ _ he
    obtain ⟨f, hf⟩ := (hr.shown hw).mpr (h1 e hmem)
    have hm := hr.correct f hf
    refine ⟨f, hf, hm, fun text htext => ?_⟩
    obtain ⟨ht1, ht2⟩ := ht text htext
    exact ⟨ht1, C107_one_text ((C107_one_name _).mpr fun h => hone (List.mem_map.mpr ⟨_, hmem, h⟩)) ht2 hm.text⟩

theorem twiceNamed_registered : ¬ Unregistered twiceNamed := by
  unfold Unregistered
  decide +kernel

/-- The names of this account. -/
theorem twiceNamed_names {b : Baker} (hb : b ∈ knownBakers) (hp : b.pfx = twiceNamed.kind.addressPrefix)
    (hh : b.hash = twiceNamed.hash) : b.name = ascii "Money every 3 days" ∨ b.name = ascii "Money Every 3 Days" := by
  revert b
  decide +kernel

/-- **C107**, the exception: both names of the account with two names are registered, but of the two tests of a
delegation to it that expect one or the other, one passes and one fails. -/
theorem C107_two_names (cr : Crypto) (hw : cr.Works) (branch : Bytes) (hb : branch.length = 32) (m : ManagerFields)
    (hm : m.source.Valid) (hread : ∀ e ∈ (Operation.delegation m (some twiceNamed)).review, e.2.Readable)
    (test : String → Bool)
    (ht : ∀ name, test name = testUi cr (branch ++ (Operation.delegation m (some twiceNamed)).encode)
      [⟨3, ascii "Delegation", [ascii name]⟩]) :
    (∀ name ∈ ["Money every 3 days", "Money Every 3 Days"], (Shown.baker twiceNamed).Text cr.hashes (ascii name)) ∧
      test "Money every 3 days" = !test "Money Every 3 Days" := by
  constructor
  · intro name hn
    left
    revert name
    decide +kernel
  have hB : batchReview branch [.delegation m (some twiceNamed)] [] =
      ("Operation", .block branch) :: (Operation.delegation m (some twiceNamed)).review := by
    simp [batchReview, opaqueReview]
  have hv : ∀ o ∈ [Operation.delegation m (some twiceNamed)], o.Valid := by
    intro o ho
    rw [List.mem_singleton.mp ho]
    exact ⟨hm, rfl⟩
  have hn : (batchReview branch [.delegation m (some twiceNamed)] []).length < 256 := by
    rw [hB]; simp [Operation.review]
  have key := fun ui =>
    testUi_batch cr hw branch hb [.delegation m (some twiceNamed)] hv [] (fun t r h => by cases h) hn ui
  have hr := (C57_review cr branch hb [.delegation m (some twiceNamed)] hv [] (fun t r h => by cases h) hn).2 3
    ("Delegation", .baker twiceNamed) (by rw [hB]; rfl)
  simp only [List.flatMap_cons, List.flatMap_nil, List.append_nil] at key hr
  obtain ⟨f, hf⟩ := (hr.shown hw).mpr trivial
  have hmat := hr.correct f hf
  have one : ∀ name, test name = true ↔ ascii name = visible f.text := by
    intro name
    rw [ht, key]
    constructor
    · rintro ⟨-, h⟩
      obtain ⟨e, -, f', hf', -, h'⟩ := h _ (List.mem_singleton.mpr rfl)
      rw [hf] at hf'
      cases hf'
      exact (h' _ rfl).2
    · intro h
      rw [hB]
      refine ⟨List.forall_mem_cons.mpr ⟨trivial, hread⟩, fun p hp => ?_⟩
      rw [List.mem_singleton.mp hp]
      refine ⟨_, rfl, f, hf, hmat, fun text htext => ?_⟩
      cases htext
      exact ⟨List.prefix_refl _, h⟩
  have hne : ascii "Money every 3 days" ≠ ascii "Money Every 3 Days" := by decide +kernel
  have hname : visible f.text = ascii "Money every 3 days" ∨ visible f.text = ascii "Money Every 3 Days" := by
    rcases hmat.text with ⟨b, hb, hp, hh, hn⟩ | ⟨hu, -⟩
    · rw [hn]
      exact twiceNamed_names hb hp hh
    · exact absurd hu twiceNamed_registered
  rw [Bool.eq_iff_iff, Bool.not_eq_true', Bool.eq_false_iff, Ne, one, one]
  rcases hname with h | h <;> rw [h]
  · exact ⟨fun _ => hne.symm, fun _ => rfl⟩
  · exact ⟨fun h => absurd h hne, fun h => absurd rfl h⟩

/-! ### The numbers of the generators -/

theorem roundHalfEven_near (x y : Nat) (hy : 0 < y) :
    2 * x ≤ 2 * (roundHalfEven x y * y) + y ∧ 2 * (roundHalfEven x y * y) ≤ 2 * x + y := by
  have h := Nat.div_add_mod x y
  have hl := Nat.mod_lt x hy
  rw [Nat.mul_comm] at h
  unfold roundHalfEven
  split
  · omega
  · split
    · rw [Nat.add_mul]; omega
    · rcases Nat.mod_two_eq_zero_or_one (x / y) with h0 | h0 <;> rw [h0, Nat.add_mul] <;> omega

theorem roundHalfEven_one (x : Nat) : roundHalfEven x 1 = x := by
  unfold roundHalfEven
  rw [Nat.mod_one, Nat.div_one, if_pos (by omega)]

/-- Integers of 53 binary digits are numbers of JavaScript. -/
theorem toDouble_int {n : Nat} (h : n < 2 ^ 53) : ∃ k, toDouble n 1 = ⟨n * 2 ^ k, 2 ^ k⟩ := by
  have hl : n.log2 ≤ 52 := by
    by_cases h0 : n = 0
    · subst h0; decide
    · have := (Nat.log2_lt h0).mpr h; omega
  have hd : n.log2 - (52 + Nat.log2 1) = 0 := by omega
  unfold toDouble
  simp only [hd, Nat.pow_zero, Nat.mul_one, roundHalfEven_one]
  exact ⟨_, rfl⟩

theorem log2_mul_two_pow {n : Nat} (h : n ≠ 0) (k : Nat) : (n * 2 ^ k).log2 = n.log2 + k := by
  have h0 : n * 2 ^ k ≠ 0 := Nat.mul_ne_zero h (by positivity)
  have h1 : 2 ^ n.log2 ≤ n := Nat.log2_self_le h
  have h2 : n < 2 ^ (n.log2 + 1) := Nat.lt_log2_self
  have h3 := (Nat.le_log2 h0 (k := n.log2 + k)).mpr (by rw [Nat.pow_add]; exact Nat.mul_le_mul_right _ h1)
  have h4 := (Nat.log2_lt h0 (k := n.log2 + k + 1)).mpr (by
    rw [show n.log2 + k + 1 = n.log2 + 1 + k by omega, Nat.pow_add]
    exact Nat.mul_lt_mul_of_pos_right h2 (by positivity))
  omega

/-- The quotient by a million is near enough. -/
theorem toDouble_millionths {n : Nat} (h : n < 2 ^ 52) (k : Nat) :
    ∃ q up, toDouble (n * 2 ^ k) (2 ^ k * 1000000) = ⟨q, 2 ^ up⟩ ∧ 1000000 < 2 ^ up ∧
      2 * (n * 2 ^ up) ≤ 2 * (q * 1000000) + 1000000 ∧ 2 * (q * 1000000) ≤ 2 * (n * 2 ^ up) + 1000000 := by
  have hb : (2 ^ k * 1000000).log2 = 19 + k := by
    rw [Nat.mul_comm, log2_mul_two_pow (by omega)]
    rfl
  have hla : (n * 2 ^ k).log2 ≤ 51 + k := by
    by_cases h0 : n = 0
    · subst h0; simp
    · rw [log2_mul_two_pow h0]
      have := (Nat.log2_lt h0).mpr h
      omega
  have hd : (n * 2 ^ k).log2 - (52 + (19 + k)) = 0 := by omega
  unfold toDouble
  simp only [hb, hd, Nat.pow_zero, Nat.mul_one]
  have hup : 20 ≤ (if n * 2 ^ k * 2 ^ (52 + (19 + k) - (n * 2 ^ k).log2) < 2 ^ 52 * (2 ^ k * 1000000) then
      52 + (19 + k) - (n * 2 ^ k).log2 + 1 else 52 + (19 + k) - (n * 2 ^ k).log2) := by
    split <;> omega
  generalize (if n * 2 ^ k * 2 ^ (52 + (19 + k) - (n * 2 ^ k).log2) < 2 ^ 52 * (2 ^ k * 1000000) then
      52 + (19 + k) - (n * 2 ^ k).log2 + 1 else 52 + (19 + k) - (n * 2 ^ k).log2) = up at hup ⊢
  refine ⟨_, up, rfl, ?_, ?_⟩
  · exact Nat.lt_of_lt_of_le (by decide : 1000000 < 2 ^ 20) (Nat.pow_le_pow_right (by omega) hup)
  · have hpos : 0 < 2 ^ k := by positivity
    obtain ⟨h1, h2⟩ := roundHalfEven_near (n * 2 ^ k * 2 ^ up) (2 ^ k * 1000000) (by positivity)
    generalize roundHalfEven (n * 2 ^ k * 2 ^ up) (2 ^ k * 1000000) = q at *
    generalize 2 ^ k = c at *
    generalize 2 ^ up = e at *
    constructor
    · apply Nat.le_of_mul_le_mul_left _ hpos
      calc c * (2 * (n * e)) = 2 * (n * c * e) := by ring
        _ ≤ _ := h1
        _ = _ := by ring
    · apply Nat.le_of_mul_le_mul_left _ hpos
      calc c * (2 * (q * 1000000)) = 2 * (q * (c * 1000000)) := by ring
        _ ≤ _ := h2
        _ = _ := by ring

theorem decimal_takeWhile (n : Nat) : (decimal n).takeWhile (fun c => decide (48 ≤ c ∧ c ≤ 57)) = decimal n := by
  have : ∀ t : Bytes, (∀ c ∈ t, isDigit c) → t.takeWhile (fun c => decide (48 ≤ c ∧ c ≤ 57)) = t := by
    intro t ht
    induction t with
    | nil => rfl
    | cons c t ih =>
      have hc := ht c (by simp)
      unfold isDigit at hc
      rw [List.takeWhile_cons_of_pos (by simpa [UInt8.le_iff_toNat_le] using hc), ih fun x hx => ht x (by simp [hx])]
  exact this _ (decimal_isDigit n)

theorem jsParseInt_decimal (n : Nat) : jsParseInt (decimal n) = some (toDouble n 1) := by
  unfold jsParseInt
  rw [decimal_takeWhile]
  have := textValue_decimal n
  unfold textValue at this
  split
  · rename_i h; exact absurd h (decimal_ne_nil n)
  · rw [this]

/-- The text that `toFixed` makes of an integer number of millionths. -/
theorem fixed_text (n d : Nat) (hd : 0 < d) (t : Bytes)
    (ht : t = List.replicate (d + 1 - (decimal n).length) 48 ++ decimal n) :
    IsFixedPoint d (t.take (t.length - d) ++ 46 :: t.drop (t.length - d)) n := by
  have hlen : d + 1 ≤ t.length := by rw [ht]; simp; omega
  have hdig : ∀ c ∈ t, isDigit c := by
    intro c hc
    rw [ht, List.mem_append] at hc
    rcases hc with hc | hc
    · rw [(List.mem_replicate.mp hc).2]; unfold isDigit; decide
    · exact decimal_isDigit n c hc
  refine ⟨_, _, rfl, by simp; omega, fun c hc => hdig c (List.mem_of_mem_take hc),
    fun c hc => hdig c (List.mem_of_mem_drop hc),
    by rw [Ne, List.take_eq_nil_iff]; rintro (h | h)
       · omega
       · rw [h] at hlen; simp at hlen, ?_, ?_⟩
  · intro cs h
    by_cases hl : (decimal n).length ≤ d
    · have : t.length = d + 1 := by rw [ht]; simp; omega
      have h1 := congrArg List.length h
      simp [this] at h1
      exact h1
    · have h0 : d + 1 - (decimal n).length = 0 := by omega
      rw [h0] at ht
      simp only [List.replicate_zero, List.nil_append] at ht
      subst ht
      have hdec := (decimal_isDecimal n).2.2.1
      cases hd' : decimal n with
      | nil => exact absurd hd' (decimal_ne_nil n)
      | cons c cs' =>
        rw [hd'] at h hdec hlen
        simp only [List.length_cons] at h hlen
        rw [show cs'.length + 1 - d = (cs'.length - d) + 1 by omega, List.take_succ_cons, List.cons.injEq] at h
        obtain ⟨rfl, h⟩ := h
        rw [hdec cs' rfl] at hlen
        simp at hlen
        omega
  · have h1 := textValue_append (t.take (t.length - d)) (t.drop (t.length - d))
    rw [List.take_append_drop, List.length_drop, show t.length - (t.length - d) = d by omega] at h1
    rw [← h1, ht, textValue_append, textValue_zeros, textValue_decimal]
    omega

/-- **C107**, amounts: what the generators expect of an amount below `2 ^ 52` is the amount in tez. -/
theorem C107_currency (n : Nat) (h : n < 2 ^ 52) :
    ∃ t, ledgerFmtCurrency (decimal n) = [t] ∧ IsFixedPoint 6 t n := by
  unfold ledgerFmtCurrency
  rw [jsParseInt_decimal]
  refine ⟨_, rfl, ?_⟩
  obtain ⟨k, hk⟩ := toDouble_int (n := n) (by omega)
  rw [hk]
  unfold Double.div mutezMult
  simp only [Nat.mul_one]
  obtain ⟨q, up, hq, h1, h2, h3⟩ := toDouble_millionths h k
  rw [hq]
  unfold Double.toFixed
  have hn : (2 * q * 10 ^ 6 + 2 ^ up) / (2 * 2 ^ up) = n := by
    generalize 2 ^ up = e at *
    apply Nat.div_eq_of_lt_le
    · rw [show n * (2 * e) = 2 * (n * e) by ring]; omega
    · rw [show (n + 1) * (2 * e) = 2 * (n * e) + 2 * e by ring]; omega
  simp only [hn]
  exact fixed_text n 6 (by omega) _ rfl

/-- **C107**, amounts, the limit: not of all integers of JavaScript. -/
theorem C107_currency_limit : ∃ n < 2 ^ 53, ∃ t, ledgerFmtCurrency (decimal n) = [t] ∧ ¬ IsFixedPoint 6 t n := by
  refine ⟨9007199254740991, by decide, ascii "9007199254.740992", by decide +kernel, fun h => ?_⟩
  have h2 := fixed_text 9007199254740992 6 (by omega) _ rfl
  rw [show _ ++ 46 :: _ = ascii "9007199254.740992" by decide +kernel] at h2
  exact absurd (IsFixedPoint.injective h h2) (by decide)

theorem transferAmount_eq : transferAmount.num = 10000 * transferAmount.den := by decide +kernel

/-! ### The generators -/

theorem decimal_means {n m : Nat} (h : IsDecimal (decimal n) m) : m = n := by
  rw [← h.2.2.2, textValue_decimal]

theorem expect_text {B : List (String × Shown)} {h : Hashes} {idx : Nat} {key : String} {val : List Bytes} {t : Bytes}
    {s : Shown} (hB : B[idx]? = some (key, s)) (hval : val = [t]) (ht : s.Text h t) :
    ∃ e, B[(expectPage idx key val).idx]? = some e ∧ ∀ text, (expectPage idx key val).message.head? = some text →
      (expectPage idx key val).title <+: ascii e.1 ∧ e.2.Text h text := by
  refine ⟨_, hB, fun text h => ?_⟩
  subst hval
  cases h
  exact ⟨List.prefix_refl _, ht⟩

theorem expect_tez {B : List (String × Shown)} {h : Hashes} {idx : Nat} {key : String} {n m : Nat}
    (hB : B[idx]? = some (key, .tez m)) (hm : IsDecimal (decimal n) m) (hn : (Shown.tez m).Readable) :
    ∃ e, B[(expectPage idx key (ledgerFmtCurrency (decimal n))).idx]? = some e ∧
      ∀ text, (expectPage idx key (ledgerFmtCurrency (decimal n))).message.head? = some text →
        (expectPage idx key (ledgerFmtCurrency (decimal n))).title <+: ascii e.1 ∧ e.2.Text h text := by
  obtain rfl := decimal_means hm
  obtain ⟨t, h1, h2⟩ := C107_currency m (Nat.lt_trans hn (by decide))
  exact expect_text hB h1 h2

theorem signed_means {n : Nat} {x : UInt32} (h : IsInt32 n x) : IsSigned (decimal n) x := by
  obtain ⟨h1, rfl⟩ := h
  exact .inl ⟨h1, decimal_isDecimal _⟩

/-- The address of the baker whom the generator of delegations knows. -/
theorem obsidian {h : Hashes} {a : Account} (hv : a.Valid)
    (ha : IsAddress h a (ascii "tz1eY5Aqa1kXDFoiebL28emyXFoneAoVg1zh")) :
    a ≠ twiceNamed ∧
      ∃ b ∈ knownBakers, b.pfx = a.kind.addressPrefix ∧ b.hash = a.hash ∧ ascii "Obsidian" = b.name := by
  obtain ⟨d1, d2, -, -, h58⟩ := ha
  have := base58Decode_iff.mpr h58
  rw [show base58Decode (ascii "tz1eY5Aqa1kXDFoiebL28emyXFoneAoVg1zh") = some ([6, 161, 159] ++
    [207, 73, 246, 107, 158, 161, 55, 225, 24, 24, 242, 167, 139, 75, 111, 201, 137, 91, 78, 80] ++ [156, 95, 87, 106])
    by decide +kernel, Option.some.injEq] at this
  have hl : a.kind.addressPrefix.length = 3 := by cases a.kind <;> rfl
  obtain ⟨h1, -⟩ := List.append_inj this (by simp only [List.length_append, hl, show a.hash.length = 20 from hv]; rfl)
  obtain ⟨h1, h2⟩ := List.append_inj h1 (by rw [hl]; rfl)
  refine ⟨fun h => ?_, ?_⟩
  · subst h
    revert h2
    decide
  · rw [← h1, ← h2]
    decide +kernel

theorem originationDelegate_cases (w : World) (n : Nat) :
    (∃ t, originationDelegate w n = (some t, t)) ∨ originationDelegate w n = (none, ascii "no delegate") := by
  unfold originationDelegate
  split
  · exact .inl ⟨_, rfl⟩
  · split
    · exact .inl ⟨_, rfl⟩
    · split
      · exact .inr rfl
      · exact .inl ⟨_, rfl⟩

theorem delegationSet_cases (w : World) (n : Nat) (x : Option Bytes × Bytes)
    (hx : x = (delegationSet w).getD (n % (delegationSet w).length) (none, [])) :
    x = (some (ascii "tz1eY5Aqa1kXDFoiebL28emyXFoneAoVg1zh"), ascii "Obsidian") ∨
      (∃ t ∈ [w.ed, w.k1, w.p256], x = (some t, t)) ∨ x = (none, ascii "<REVOKED>") := by
  have h : n % (delegationSet w).length < 5 := Nat.mod_lt n (show 0 < 5 by omega)
  subst hx
  generalize n % (delegationSet w).length = k at h
  match k, h with
  | 0, _ => exact .inl rfl
  | 1, _ => exact .inr (.inl ⟨w.ed, by simp, rfl⟩)
  | 2, _ => exact .inr (.inl ⟨w.p256, by simp, rfl⟩)
  | 3, _ => exact .inr (.inl ⟨w.k1, by simp, rfl⟩)
  | 4, _ => exact .inr (.inr rfl)

/-- **C107**, the generators. Whatever a generator learns from the device, the node and the random number generator: if
the node forges the operation that the vector describes, and its numbers are ones the device can read, then the display
test of this vector passes. The three addresses of the device must not be registered bakers. -/
theorem C107_generated (g : Generator) (w : World) (n : Nat) (v : TestVector) (hg : g.run w n = some v) (cr : Crypto)
    (hw : cr.Works) (hsha : ∀ m, cr.sha256 m = some (w.sha256 m)) (branch : Bytes) (hb : branch.length = 32)
    (hbr : (Shown.block branch).Text cr.hashes v.branch) (o : Operation) (ho : o.Valid)
    (hf : Forges cr.hashes v.content o) (hread : ∀ e ∈ o.review, e.2.Readable)
    (hun : ∀ a, ∀ t ∈ [w.ed, w.k1, w.p256], IsAddress cr.hashes a t → Unregistered a) :
    v.passes cr (branch ++ o.encode) = true := by
  have key : ∀ ui, v.output = some ui → .baker twiceNamed ∉ o.review.map Prod.snd → o.review.length < 255 →
      (∀ p ∈ ui, ∃ e, (("Operation", Shown.block branch) :: o.review)[p.idx]? = some e ∧
        ∀ text, p.message.head? = some text → p.title <+: ascii e.1 ∧ e.2.Text cr.hashes text) →
      v.passes cr (branch ++ o.encode) = true := by
    intro ui hui h1 h2 h3
    have hB : batchReview branch [o] [] = ("Operation", .block branch) :: o.review := by
      simp [batchReview, opaqueReview]
    have := (C107_tests cr hw branch hb [o] (by simpa using ho) [] (fun t r h => by cases h)
      (by rw [hB]; simp only [List.length_cons]; omega) (by rw [hB]; simpa using h1) ui).mpr
      ⟨by rw [hB]; exact List.forall_mem_cons.mpr ⟨trivial, hread⟩, by rw [hB]; exact h3⟩
    simp only [List.flatMap_cons, List.flatMap_nil, List.append_nil] at this
    unfold TestVector.passes
    rw [hui]
    exact this
  cases g with
  | seed => cases hg; rfl
  | endorsement =>
    cases hg
    cases o <;> try exact hf.elim
    rename_i l
    refine key _ rfl (by simp [Operation.review]) (by simp [Operation.review]) ?_
    simp only [List.forall_mem_cons]
    exact ⟨expect_text rfl rfl hbr, expect_text rfl rfl rfl, expect_text rfl rfl (signed_means hf), nofun⟩
  | activation =>
    cases hg
    cases o <;> try exact hf.elim
    rename_i hash s
    obtain ⟨h1, h2⟩ := hf
    refine key _ rfl (by simp [Operation.review]) (by simp [Operation.review]) ?_
    simp only [List.forall_mem_cons]
    exact ⟨expect_text rfl rfl hbr, expect_text rfl rfl rfl, expect_text rfl rfl h1, expect_text rfl rfl h2, nofun⟩
  | ballot =>
    cases hg
    cases o <;> try exact hf.elim
    rename_i s p hash vote
    obtain ⟨h1, h2, h3, h4⟩ := hf
    refine key _ rfl (by simp [Operation.review]) (by simp [Operation.review]) ?_
    simp only [List.forall_mem_cons]
    exact ⟨expect_text rfl rfl hbr, expect_text rfl rfl rfl, expect_text rfl rfl h1,
      expect_text rfl rfl (signed_means h2), expect_text rfl rfl h3, expect_text rfl rfl h4, nofun⟩
  | proposals =>
    cases hg
    cases o <;> try exact hf.elim
    rename_i s p ps
    obtain ⟨h1, h2, h3⟩ := hf
    cases h3 with
    | cons h3 h4 =>
      cases h4 with
      | cons h4 h5 =>
        cases h5
        have t1 : s!"Proposal #{0 + 1}" = "Proposal #1" := by decide +kernel
        have t2 : s!"Proposal #{1 + 1}" = "Proposal #2" := by decide +kernel
        refine key _ rfl (by simp [Operation.review]) (by simp [Operation.review]) ?_
        simp only [List.forall_mem_cons]
        exact ⟨expect_text rfl rfl hbr, expect_text rfl rfl rfl, expect_text rfl rfl h1,
          expect_text rfl rfl (signed_means h2), expect_text (s := .proposal _) (by rw [← t1]; rfl) rfl h3,
          expect_text (s := .proposal _) (by rw [← t2]; rfl) rfl h4, nofun⟩
  | reveal =>
    cases hg
    cases o <;> try exact hf.elim
    rename_i m kind pk
    obtain ⟨⟨h1, h2, h3, h4, h5⟩, h6⟩ := hf
    refine key _ rfl (by simp [Operation.review]) (by simp [Operation.review]) ?_
    have hr := hread
    simp only [Operation.review, List.forall_mem_cons] at hr
    simp only [List.forall_mem_cons]
    exact ⟨expect_text rfl rfl hbr, expect_text rfl rfl rfl, expect_text rfl rfl h1, expect_text rfl rfl h6,
      expect_tez rfl h2 hr.2.2.2.1, expect_text rfl rfl h3, expect_text rfl rfl h4, expect_text rfl rfl h5, nofun⟩
  | transaction =>
    obtain ⟨e, he, rfl⟩ := Option.map_eq_some_iff.mp hg
    cases o <;> try exact hf.elim
    rename_i m a d call
    obtain ⟨⟨h1, h2, h3, h4, h5⟩, h6, rfl, acc, rfl, h7⟩ := hf
    refine key _ rfl (by simp [Operation.review]) (by simp [Operation.review]) ?_
    have hr := hread
    simp only [Operation.review, List.forall_mem_cons] at hr
    simp only [List.forall_mem_cons]
    exact ⟨expect_text rfl rfl hbr, expect_text rfl rfl rfl, expect_text rfl rfl h1, expect_text rfl rfl h7,
      expect_tez rfl h6 hr.2.2.2.1, expect_tez rfl h2 hr.2.2.2.2.1, expect_text rfl rfl rfl, expect_text rfl rfl h3,
      expect_text rfl rfl h4, expect_text rfl rfl h5, nofun⟩
  | origination =>
    cases hg
    cases o <;> try exact hf.elim
    rename_i m b d c st
    obtain ⟨⟨h1, h2, h3, h4, h5⟩, h6, h7, h8, h9⟩ := hf
    have hc : c = forgedCode := by
      have : michelsonSequence originationCode = some forgedCode := by decide +kernel
      exact Option.some.inj (h8.symm.trans this)
    have hs : st = forgedStorage := by
      have : michelsonEncode originationStorage = some forgedStorage := by decide +kernel
      exact Option.some.inj (h9.symm.trans this)
    subst hc hs
    refine key _ rfl (by simp only [Operation.review]; cases d <;> simp) (by simp [Operation.review]) ?_
    have hr := hread
    simp only [Operation.review, List.forall_mem_cons] at hr
    have e1 : ascii "10000" = decimal 10000 := by decide +kernel
    have hdel : ∃ s, (("Operation", Shown.block branch) ::
        (Operation.origination m b d forgedCode forgedStorage).review)[4]? = some ("Delegate", s) ∧
        s.Text cr.hashes (originationDelegate w n).2 := by
      refine ⟨_, rfl, ?_⟩
      replace h7 : OptionalAddress cr.hashes (originationDelegate w n).1 d := h7
      rcases originationDelegate_cases w n with ⟨t, ht⟩ | ht <;> rw [ht] at h7 ⊢ <;> cases d
      · exact h7.elim
      · exact h7
      · rfl
      · exact h7.elim
    obtain ⟨s, hs1, hs2⟩ := hdel
    simp only [List.forall_mem_cons]
    rw [e1] at h2 ⊢
    exact ⟨expect_text rfl rfl hbr, expect_text rfl rfl rfl, expect_text rfl rfl h1, expect_tez rfl h6 hr.2.2.1,
      expect_text hs1 rfl hs2, expect_tez rfl h2 hr.2.2.2.2.1,
      expect_text rfl rfl ⟨_, hsha _, readHex_encode _⟩, expect_text rfl rfl ⟨_, hsha _, readHex_encode _⟩,
      expect_text rfl rfl h3, expect_text rfl rfl h4, expect_text rfl rfl h5, nofun⟩
  | delegation =>
    obtain ⟨e, he, rfl⟩ := Option.map_eq_some_iff.mp hg
    cases o <;> try exact hf.elim
    rename_i m d
    obtain ⟨⟨h1, h2, h3, h4, h5⟩, h6⟩ := hf
    replace h6 : OptionalAddress cr.hashes ((delegationSet w).getD (n % (delegationSet w).length) (none, [])).1 d := h6
    have hdel : .baker twiceNamed ∉ (Operation.delegation m d).review.map Prod.snd ∧
        ∃ k s, (("Operation", Shown.block branch) :: (Operation.delegation m d).review)[1]? = some ("Type", .words k) ∧
        k = (if ((delegationSet w).getD (n % (delegationSet w).length) (none, [])).1.isSome then "Delegation"
          else "Delegation Withdrawal") ∧
        (("Operation", Shown.block branch) :: (Operation.delegation m d).review)[3]? = some ("Delegation", s) ∧
        s.Text cr.hashes ((delegationSet w).getD (n % (delegationSet w).length) (none, [])).2 := by
      rcases delegationSet_cases w n _ rfl with ht | ⟨t, htm, ht⟩ | ht <;> rw [ht] at h6 ⊢ <;> cases d
      · exact h6.elim
      · rename_i a
        obtain ⟨hne, b, hb1, hb2, hb3, hb4⟩ := obsidian ho.2 h6
        refine ⟨?_, _, _, rfl, rfl, rfl, .inl ⟨b, hb1, hb2, hb3, hb4⟩⟩
        simp only [Operation.review, List.map_cons, List.map_nil, List.mem_cons, List.not_mem_nil, or_false,
          Shown.baker.injEq, reduceCtorEq, false_or]
        exact fun h => hne h.symm
      · exact h6.elim
      · have hu := hun _ t htm h6
        refine ⟨?_, _, _, rfl, rfl, rfl, .inr ⟨hu, h6⟩⟩
        simp only [Operation.review, List.map_cons, List.map_nil, List.mem_cons, List.not_mem_nil, or_false,
          Shown.baker.injEq, reduceCtorEq, false_or]
        rintro rfl
        exact twiceNamed_registered hu
      · exact ⟨by simp [Operation.review], _, _, rfl, rfl, rfl, rfl⟩
      · exact h6.elim
    obtain ⟨hone, k, s, hk, rfl, hs1, hs2⟩ := hdel
    refine key _ rfl hone (by simp [Operation.review]) ?_
    have hr := hread
    simp only [Operation.review, List.forall_mem_cons] at hr
    simp only [List.forall_mem_cons]
    exact ⟨expect_text rfl rfl hbr, expect_text hk rfl rfl, expect_text rfl rfl h1, expect_text hs1 rfl hs2,
      expect_tez rfl h2 hr.2.2.2.1, expect_text rfl rfl h3, expect_text rfl rfl h4, expect_text rfl rfl h5, nofun⟩

/-! ### Examples -/
namespace Demo

/-- Hash functions whose checksum is that of the baker's address. -/
def genCr : Crypto where
  sha256 := fun _ => some ([156, 95, 87, 106] ++ List.replicate 28 0)
  sha512 := fun _ => none
  blake2b := fun n _ => some (List.replicate n 0)
  hmac := fun _ _ => none
  publicKey := fun _ _ => none
  sign := fun _ _ _ => none

theorem genCr_works : genCr.Works where
  sized := ⟨fun h => by cases h; rfl, nofun, fun h => by cases h; simp, nofun, nofun, nofun⟩
  sha256 _ := rfl
  blake2b _ := rfl

/-- Base58 text with this checksum. -/
def genText (b : Bytes) : Bytes := base58 (b ++ [156, 95, 87, 106])

theorem genText_check (p b : Bytes) : IsBase58Check genCr.hashes p b (genText (p ++ b)) :=
  ⟨_, _, rfl, rfl, base58_isBase58 _⟩

def genWorld : World where
  ed := genText ([6, 161, 159] ++ List.replicate 20 1)
  k1 := genText ([6, 161, 161] ++ List.replicate 20 2)
  p256 := genText ([6, 161, 164] ++ List.replicate 20 3)
  source := genText ([6, 161, 159] ++ List.replicate 20 1)
  publicKey := genText ([13, 15, 37, 217] ++ List.replicate 32 4)
  hash := genText ([1, 52] ++ List.replicate 32 5)
  counter := some (ascii "11")
  estimate := some ⟨300, 1000, 0⟩
  random := List.replicate 20 7
  sha256 := fun _ => [156, 95, 87, 106] ++ List.replicate 28 0

/-- The first delegation, to the registered baker. -/
def genDelegate : Account :=
  ⟨.ed25519, [207, 73, 246, 107, 158, 161, 55, 225, 24, 24, 242, 167, 139, 75, 111, 201, 137, 91, 78, 80]⟩

def genManager : ManagerFields := ⟨⟨.ed25519, List.replicate 20 1⟩, 300, 12, 1000, 0⟩

/-- An address with this checksum stands for one account only. -/
theorem genText_account {a : Account} {k : KeyKind} {hash : Bytes}
    (h : IsAddress genCr.hashes a (genText (k.addressPrefix ++ hash))) : a.hash = hash := by
  obtain ⟨d1, d2, h1, h2, h3⟩ := h
  cases h1
  cases h2
  have e := base58_injective (IsBase58.unique h3)
  have hk : ∀ k : KeyKind, k.addressPrefix.length = 3 := by intro k; cases k <;> rfl
  have h4 := congrArg List.length e
  simp [hk] at h4
  obtain ⟨h5, -⟩ := List.append_inj e (by simp [hk]; omega)
  exact (List.append_inj h5 (by rw [hk, hk])).2.symm

theorem genWorld_unregistered :
    ∀ a, ∀ t ∈ [genWorld.ed, genWorld.k1, genWorld.p256], IsAddress genCr.hashes a t → Unregistered a := by
  rintro a t ht h b hb ⟨-, h2⟩
  simp only [List.mem_cons, List.not_mem_nil, or_false] at ht
  rcases ht with rfl | rfl | rfl
  · rw [genText_account (k := .ed25519) h] at h2
    revert b
    decide +kernel
  · rw [genText_account (k := .secp256k1) h] at h2
    revert b
    decide +kernel
  · rw [genText_account (k := .p256) h] at h2
    revert b
    decide +kernel

/-- The test vector of this delegation passes. -/
example : ∃ v, Generator.delegation.run genWorld 0 = some v ∧
    v.passes genCr (List.replicate 32 5 ++ (Operation.delegation genManager (some genDelegate)).encode) = true := by
  refine ⟨_, rfl, C107_generated .delegation genWorld 0 _ rfl genCr genCr_works (fun _ => rfl) _ (by simp)
    (genText_check _ _) _ ⟨rfl, rfl⟩ ⟨⟨genText_check _ _, decimal_isDecimal _, decimal_isDecimal _,
      decimal_isDecimal _, ?_⟩, ?_⟩ ?_ genWorld_unregistered⟩
  · exact decimal_isDecimal 12
  · have := genText_check genDelegate.kind.addressPrefix genDelegate.hash
    rwa [show genText (genDelegate.kind.addressPrefix ++ genDelegate.hash) =
      ascii "tz1eY5Aqa1kXDFoiebL28emyXFoneAoVg1zh" by decide +kernel] at this
  · simp only [Operation.review, List.forall_mem_cons, genManager]
    exact ⟨trivial, trivial, trivial, show 300 < _ by decide, show 1000 < _ by decide, show 0 < _ by decide,
      show 12 < _ by decide, nofun⟩

/-- And with another fee it does not. -/
example : testUi genCr (List.replicate 32 5 ++ (Operation.delegation genManager (some genDelegate)).encode)
    [⟨4, ascii "Fee", [ascii "0.000301"]⟩] = false := by decide +kernel

end Demo
end Tezos
