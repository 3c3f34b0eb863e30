import Verif.Version
import Verif.Spec.Display
import Verif.Props.Queries
import Verif.Scenario
/-
The version that the app replies is the one in the file it is built from.
-/
namespace Spec

/-- White space: the Unicode property White_Space. -/
def White (c : Char) : Prop :=
  c.toNat ∈ [9, 10, 11, 12, 13, 0x20, 0x85, 0xA0, 0x1680, 0x2000, 0x2001, 0x2002, 0x2003, 0x2004, 0x2005, 0x2006,
    0x2007, 0x2008, 0x2009, 0x200A, 0x2028, 0x2029, 0x202F, 0x205F, 0x3000]

/-- The lines of a text: what is between line feeds. -/
inductive Lines : List Char → List (List Char) → Prop where
  | last {l : List Char} (h : '\n' ∉ l) : Lines l [l]
  | more {l rest : List Char} {ls : List (List Char)} (h : '\n' ∉ l) (hr : Lines rest ls) :
      Lines (l ++ '\n' :: rest) (l :: ls)

/-- `t` is a numeral for `n`: at least one decimal digit, maybe after a plus sign. -/
def IsNumeral (t : List Char) (n : Nat) : Prop :=
  ∃ ds : List Nat, ds ≠ [] ∧ (∀ d ∈ ds, d < 10) ∧ digitsValue 10 ds = n ∧
    (t = ds.map (fun d => Char.ofNat (48 + d)) ∨ t = '+' :: ds.map (fun d => Char.ofNat (48 + d)))

/-- What a line of the file says: nothing if it is blank or a comment; otherwise it gives a value to a name. -/
inductive LineSays : List Char → Option (List Char × UInt8) → Prop where
  | blank {l : List Char} (h : ∀ c ∈ l, White c) : LineSays l none
  | comment {w rest : List Char} (h : ∀ c ∈ w, White c) : LineSays (w ++ '#' :: rest) none
  | assign {w name num w' : List Char} {v : UInt8} (h : ∀ c ∈ w, White c) (h' : ∀ c ∈ w', White c)
      (heq : '=' ∉ name) (hhead : ∀ c, name.head? = some c → c ≠ '#' ∧ ¬ White c) (hn : IsNumeral num v.toNat) :
      LineSays (w ++ (name ++ '=' :: num) ++ w') (some (name, v))

/-- What a file says: the values given by its lines, in order. -/
def FileSays (text : List Char) (defs : List (List Char × UInt8)) : Prop :=
  ∃ ls os, Lines text ls ∧ List.Forall₂ LineSays ls os ∧ defs = os.filterMap id

end Spec

namespace Tezos
open Spec

/-! ### Lines -/

theorem splitAtNewlines_ne (t : List Char) : splitAtNewlines t ≠ [] := by
  cases t with
  | nil => simp [splitAtNewlines]
  | cons c cs =>
    simp only [splitAtNewlines]
    split
    · simp
    · split <;> simp

theorem splitAtNewlines_last {l : List Char} (h : '\n' ∉ l) : splitAtNewlines l = [l] := by
  induction l with
  | nil => rfl
  | cons c cs ih =>
    simp only [List.mem_cons, not_or] at h
    simp only [splitAtNewlines, ih h.2, if_neg (Ne.symm h.1)]

theorem splitAtNewlines_more {l rest : List Char} (h : '\n' ∉ l) :
    splitAtNewlines (l ++ '\n' :: rest) = l :: splitAtNewlines rest := by
  induction l with
  | nil => simp [splitAtNewlines]
  | cons c cs ih =>
    simp only [List.mem_cons, not_or] at h
    simp only [List.cons_append, splitAtNewlines, ih h.2, if_neg (Ne.symm h.1)]

theorem lines_iff {t : List Char} {ls : List (List Char)} : Lines t ls ↔ splitAtNewlines t = ls := by
  constructor
  · intro h
    induction h with
    | last h => exact splitAtNewlines_last h
    | more h _ ih => rw [splitAtNewlines_more h, ih]
  · rintro rfl
    induction t with
    | nil => exact .last (by simp)
    | cons c cs ih =>
      simp only [splitAtNewlines]
      split
      · rename_i hc
        subst hc
        exact Lines.more (l := []) (by simp) ih
      · rename_i hc
        cases h : splitAtNewlines cs with
        | nil => exact absurd h (splitAtNewlines_ne cs)
        | cons l ls =>
          rw [h] at ih
          cases ih with
          | last hl => exact .last (by simp [hl, Ne.symm hc])
          | @more _ rest _ hl hr => exact Lines.more (l := c :: l) (by simp [hl, Ne.symm hc]) hr

/-! ### White space -/

theorem isSpace_iff (c : Char) : isSpace c = true ↔ White c := by
  unfold isSpace White
  simp only [Bool.or_eq_true, Bool.and_eq_true, decide_eq_true_eq, beq_iff_eq, List.mem_cons, List.not_mem_nil, or_false]
  omega

theorem dropWhile_split (l : List Char) :
    ∃ w, l = w ++ l.dropWhile isSpace ∧ (∀ c ∈ w, White c) ∧
      ∀ c, (l.dropWhile isSpace).head? = some c → ¬ White c := by
  refine ⟨l.takeWhile isSpace, (List.takeWhile_append_dropWhile).symm, ?_, ?_⟩
  · intro c hc
    exact (isSpace_iff c).mp (List.all_eq_true.mp List.all_takeWhile c hc)
  · intro c hc hw
    have := List.head?_dropWhile_not isSpace l
    rw [hc] at this
    simp only at this
    rw [(isSpace_iff c).mpr hw] at this
    simp at this

theorem dropWhile_spaces {w m : List Char} (hw : ∀ c ∈ w, White c) (hm : ∀ c, m.head? = some c → ¬ White c) :
    (w ++ m).dropWhile isSpace = m := by
  induction w with
  | nil =>
    cases m with
    | nil => rfl
    | cons c cs =>
      have := hm c rfl
      rw [List.nil_append, List.dropWhile_cons_of_neg]
      rw [isSpace_iff]
      exact this
  | cons c cs ih =>
    rw [List.cons_append, List.dropWhile_cons_of_pos ((isSpace_iff c).mpr (hw c (by simp)))]
    exact ih (fun x hx => hw x (by simp [hx]))

theorem trimSpaces_split (l : List Char) :
    ∃ w w', l = w ++ trimSpaces l ++ w' ∧ (∀ c ∈ w, White c) ∧ (∀ c ∈ w', White c) ∧
      (∀ c, (trimSpaces l).head? = some c → ¬ White c) := by
  obtain ⟨w, h1, h2, h3⟩ := dropWhile_split l
  obtain ⟨v, h4, h5, h6⟩ := dropWhile_split (l.dropWhile isSpace).reverse
  have h7 : l.dropWhile isSpace = trimSpaces l ++ v.reverse := by
    have := congrArg List.reverse h4
    rwa [List.reverse_reverse, List.reverse_append] at this
  refine ⟨w, v.reverse, ?_, h2, fun c hc => h5 c (List.mem_reverse.mp hc), ?_⟩
  · conv => lhs; rw [h1, h7]
    rw [List.append_assoc]
  · intro c hc
    apply h3
    rw [h7, List.head?_append, hc]
    rfl

theorem trimSpaces_eq {w m w' : List Char} (hw : ∀ c ∈ w, White c) (hw' : ∀ c ∈ w', White c)
    (hh : ∀ c, m.head? = some c → ¬ White c) (hl : ∀ c, m.getLast? = some c → ¬ White c) (hm : m ≠ []) :
    trimSpaces (w ++ m ++ w') = m := by
  unfold trimSpaces
  rw [List.append_assoc, dropWhile_spaces hw (by
    intro c hc
    rw [List.head?_append_of_ne_nil _ hm] at hc
    exact hh c hc)]
  rw [List.reverse_append, dropWhile_spaces (fun c hc => hw' c (List.mem_reverse.mp hc)) (by
    intro c hc
    rw [List.head?_reverse] at hc
    exact hl c hc), List.reverse_reverse]

theorem trimSpaces_blank {l : List Char} (h : ∀ c ∈ l, White c) : trimSpaces l = [] := by
  unfold trimSpaces
  have := dropWhile_spaces (w := l) (m := []) h (by simp)
  rw [List.append_nil] at this
  rw [this]
  rfl

/-- What comes first in a text is still first when trimmed, if it is not white. -/
theorem trimSpaces_head {w rest : List Char} {a : Char} (hw : ∀ c ∈ w, White c) (ha : ¬ White a) :
    (trimSpaces (w ++ a :: rest)).head? = some a := by
  unfold trimSpaces
  rw [dropWhile_spaces hw (by simpa using ha)]
  obtain ⟨v, h4, h5, h6⟩ := dropWhile_split (a :: rest).reverse
  have h7 : a :: rest = ((a :: rest).reverse.dropWhile isSpace).reverse ++ v.reverse := by
    have := congrArg List.reverse h4
    rwa [List.reverse_reverse, List.reverse_append] at this
  cases h8 : ((a :: rest).reverse.dropWhile isSpace).reverse with
  | nil =>
    rw [h8, List.nil_append] at h7
    exact absurd (h5 a (List.mem_reverse.mp (by rw [← h7]; simp))) ha
  | cons x xs =>
    rw [h8] at h7
    simp only [List.cons_append, List.cons.injEq] at h7
    rw [h7.1]
    rfl

/-! ### Numerals -/

theorem digit_char {d : Nat} (h : d < 10) :
    '0' ≤ Char.ofNat (48 + d) ∧ Char.ofNat (48 + d) ≤ '9' ∧ (Char.ofNat (48 + d)).toNat - 48 = d ∧
      Char.ofNat (48 + d) ≠ '+' ∧ ¬ White (Char.ofNat (48 + d)) := by
  have := (by decide +kernel : ∀ d < 10, '0' ≤ Char.ofNat (48 + d) ∧ Char.ofNat (48 + d) ≤ '9' ∧
    (Char.ofNat (48 + d)).toNat - 48 = d ∧ Char.ofNat (48 + d) ≠ '+' ∧ isSpace (Char.ofNat (48 + d)) = false) d h
  refine ⟨this.1, this.2.1, this.2.2.1, this.2.2.2.1, ?_⟩
  rw [← isSpace_iff, this.2.2.2.2]
  simp

theorem char_digit {c : Char} (h0 : '0' ≤ c) (h9 : c ≤ '9') : c.toNat - 48 < 10 ∧ Char.ofNat (48 + (c.toNat - 48)) = c := by
  have h1 : 48 ≤ c.toNat := h0
  have h2 : c.toNat ≤ 57 := h9
  refine ⟨by omega, ?_⟩
  rw [Nat.add_sub_cancel' h1, Char.ofNat_toNat]

theorem foldl_ge (ds : List Nat) (a : Nat) : a ≤ ds.foldl (fun a d => a * 10 + d) a := by
  induction ds generalizing a with
  | nil => exact Nat.le_refl _
  | cons d ds ih => exact Nat.le_trans (by omega) (ih (a * 10 + d))

theorem parseDigits_some {acc : Nat} {cs : List Char} {v : Nat} (ha : acc < 256) :
    parseDigits acc cs = some v ↔
      v < 256 ∧ ∃ ds : List Nat, (∀ d ∈ ds, d < 10) ∧ cs = ds.map (fun d => Char.ofNat (48 + d)) ∧
        ds.foldl (fun a d => a * 10 + d) acc = v := by
  induction cs generalizing acc with
  | nil =>
    simp only [parseDigits, Option.some.injEq]
    constructor
    · rintro rfl
      exact ⟨ha, [], by simp, rfl, rfl⟩
    · rintro ⟨_, ds, _, h, h'⟩
      rw [eq_comm, List.map_eq_nil_iff] at h
      subst h
      exact h'
  | cons c cs ih =>
    simp only [parseDigits]
    constructor
    · intro h
      split at h
      · rename_i hc
        split at h
        · rename_i hv
          obtain ⟨h1, ds, h2, h3, h4⟩ := (ih hv).mp h
          obtain ⟨hd, hcd⟩ := char_digit hc.1 hc.2
          refine ⟨h1, (c.toNat - 48) :: ds, ?_, by simp [hcd, h3], h4⟩
          intro d hd'
          rcases List.mem_cons.mp hd' with rfl | hd'
          · exact hd
          · exact h2 d hd'
        · cases h
      · cases h
    · rintro ⟨h1, ds, h2, h3, h4⟩
      cases ds with
      | nil => cases h3
      | cons d ds =>
        simp only [List.map_cons, List.cons.injEq] at h3
        obtain ⟨rfl, rfl⟩ := h3
        obtain ⟨g0, g9, gv, _⟩ := digit_char (h2 d (by simp))
        have hle := foldl_ge ds (acc * 10 + d)
        simp only [List.foldl_cons] at h4
        rw [if_pos ⟨g0, g9⟩, gv]
        rw [if_pos (by omega)]
        exact (ih (by omega)).mpr ⟨h1, ds, fun x hx => h2 x (by simp [hx]), rfl, h4⟩

theorem parseU8_some {t : List Char} {v : UInt8} : parseU8 t = some v ↔ IsNumeral t v.toNat := by
  have key : ∀ cs : List Char, cs ≠ [] → ((parseDigits 0 cs).map UInt8.ofNat = some v ↔
      ∃ ds : List Nat, ds ≠ [] ∧ (∀ d ∈ ds, d < 10) ∧ digitsValue 10 ds = v.toNat ∧
        cs = ds.map (fun d => Char.ofNat (48 + d))) := by
    intro cs hne
    rw [Option.map_eq_some_iff]
    constructor
    · rintro ⟨n, hn, rfl⟩
      obtain ⟨h1, ds, h2, h3, h4⟩ := (parseDigits_some (by omega)).mp hn
      refine ⟨ds, ?_, h2, ?_, h3⟩
      · rintro rfl
        exact hne h3
      · rw [show (UInt8.ofNat n).toNat = n by simp [Nat.mod_eq_of_lt h1]]
        exact h4
    · rintro ⟨ds, _, h2, h3, h4⟩
      exact ⟨v.toNat, (parseDigits_some (by omega)).mpr ⟨v.toNat_lt, ds, h2, h4, h3⟩, by simp⟩
  unfold IsNumeral
  constructor
  · intro h
    unfold parseU8 at h
    split at h
    · cases h
    · cases h
    · rename_i cs hne
      obtain ⟨ds, h1, h2, h3, h4⟩ := (key cs (by rintro rfl; exact hne rfl)).mp h
      exact ⟨ds, h1, h2, h3, .inr (by rw [h4])⟩
    · rename_i hne _ _
      obtain ⟨ds, h1, h2, h3, h4⟩ := (key t (by rintro rfl; exact hne rfl)).mp h
      exact ⟨ds, h1, h2, h3, .inl h4⟩
  · rintro ⟨ds, h1, h2, h3, h4⟩
    have hne : ds.map (fun d => Char.ofNat (48 + d)) ≠ [] := by simpa using h1
    have hk := (key _ hne).mpr ⟨ds, h1, h2, h3, rfl⟩
    rcases h4 with rfl | rfl
    · cases ds with
      | nil => exact absurd rfl h1
      | cons d ds =>
        have hp := (digit_char (h2 d (by simp))).2.2.2.1
        unfold parseU8
        split
        · rename_i hc; simp at hc
        · rename_i hc; simp only [List.map_cons, List.cons.injEq] at hc; exact absurd hc.1 hp
        · rename_i hc; simp only [List.map_cons, List.cons.injEq] at hc; exact absurd hc.1 hp
        · exact hk
    · unfold parseU8
      split
      · rename_i hc; cases hc
      · rename_i hc
        simp only [List.cons.injEq, true_and] at hc
        exact absurd hc hne
      · rename_i hc
        simp only [List.cons.injEq, true_and] at hc
        rw [← hc]
        exact hk
      · rename_i hc
        exact absurd rfl (hc _)

/-! ### Definitions -/

/-- The reading of one line: `some none` when it is ignored. -/
def readLine (l : List Char) : Option (Option Definition) :=
  let t := trimSpaces l
  if t = [] then some none
  else if t.head? = some '#' then some none
  else (readDefinition t).map some

theorem readDefinitions_cons (l : List Char) (ls : List (List Char)) :
    readDefinitions (l :: ls) = (readLine l).bind fun o => (readDefinitions ls).map fun ds => o.toList ++ ds := by
  simp only [readDefinitions, readLine]
  split
  · cases readDefinitions ls <;> rfl
  · split
    · cases readDefinitions ls <;> rfl
    · cases readDefinition (trimSpaces l) with
      | none => rfl
      | some d => cases readDefinitions ls <;> rfl

theorem readDefinition_some {t : List Char} {d : Definition} :
    readDefinition t = some d ↔ ∃ num, t = d.name ++ '=' :: num ∧ '=' ∉ d.name ∧ IsNumeral num d.value.toNat := by
  unfold readDefinition
  rw [List.span_eq_takeWhile_dropWhile]
  constructor
  · intro h
    have hs := (List.takeWhile_append_dropWhile (p := fun c => decide (c ≠ '=')) (l := t)).symm
    have hh := List.head?_dropWhile_not (fun c => decide (c ≠ '=')) t
    have hn : '=' ∉ t.takeWhile (fun c => decide (c ≠ '=')) := fun hm => by
      have := List.all_eq_true.mp List.all_takeWhile _ hm
      simp at this
    split at h
    · rename_i name x value he
      simp only [Prod.mk.injEq] at he
      rw [Option.map_eq_some_iff] at h
      obtain ⟨v, hv, rfl⟩ := h
      rw [he.2] at hh hs
      simp only [List.head?_cons, decide_eq_false_iff_not, ne_eq, not_not] at hh
      refine ⟨value, ?_, ?_, parseU8_some.mp hv⟩
      · rw [← he.1]
        rw [hh] at hs
        exact hs
      · rw [← he.1]
        exact hn
    · cases h
  · rintro ⟨num, rfl, hn, hv⟩
    have h1 : ∀ c ∈ d.name, decide (c ≠ '=') = true := by
      intro c hc
      simp only [ne_eq, decide_eq_true_eq]
      rintro rfl
      exact hn hc
    rw [List.takeWhile_append_of_pos h1, List.dropWhile_append_of_pos h1]
    simp only [ne_eq, not_true_eq_false, decide_false, Bool.false_eq_true, not_false_eq_true,
      List.takeWhile_cons_of_neg, List.dropWhile_cons_of_neg, List.append_nil, parseU8_some.mpr hv]
    rfl

theorem IsNumeral.last {t : List Char} {n : Nat} (h : IsNumeral t n) : t ≠ [] ∧ ∀ c, t.getLast? = some c → ¬ White c := by
  obtain ⟨ds, h1, h2, _, h4⟩ := h
  have hne : ds.map (fun d => Char.ofNat (48 + d)) ≠ [] := by simpa using h1
  have hl : ∀ c, (ds.map (fun d => Char.ofNat (48 + d))).getLast? = some c → ¬ White c := by
    intro c hc
    obtain ⟨d, hd, rfl⟩ := List.mem_map.mp (List.mem_of_getLast? hc)
    exact (digit_char (h2 d hd)).2.2.2.2
  rcases h4 with rfl | rfl
  · exact ⟨hne, hl⟩
  · refine ⟨by simp, fun c hc => hl c ?_⟩
    rwa [List.getLast?_cons_of_ne_nil hne] at hc

theorem readLine_iff {l : List Char} {o : Option Definition} :
    readLine l = some o ↔ LineSays l (o.map fun d => (d.name, d.value)) := by
  constructor
  · intro h
    obtain ⟨w, w', h1, h2, h3, h4⟩ := trimSpaces_split l
    simp only [readLine] at h
    split at h
    · rename_i ht
      cases h
      rw [ht, List.append_nil] at h1
      refine .blank ?_
      rw [h1]
      intro c hc
      rcases List.mem_append.mp hc with hc | hc
      · exact h2 c hc
      · exact h3 c hc
    · split at h
      · rename_i ht
        cases h
        cases hts : trimSpaces l with
        | nil => rw [hts] at ht; cases ht
        | cons x xs =>
          rw [hts] at ht h1
          cases ht
          rw [h1, List.append_assoc, List.cons_append]
          exact .comment h2
      · rename_i hnil hhash
        rw [Option.map_eq_some_iff] at h
        obtain ⟨d, hd, rfl⟩ := h
        obtain ⟨num, h5, h6, h7⟩ := readDefinition_some.mp hd
        rw [h1, h5]
        refine .assign h2 h3 h6 ?_ h7
        intro c hc
        have hh : (trimSpaces l).head? = some c := by rw [h5, List.head?_append, hc]; rfl
        refine ⟨?_, h4 c hh⟩
        rintro rfl
        exact hhash hh
  · intro h
    generalize ho : o.map (fun d => (d.name, d.value)) = q at h
    cases h with
    | blank h =>
      rw [Option.map_eq_none_iff] at ho
      subst ho
      simp only [readLine, trimSpaces_blank h, if_true]
    | @comment w rest h =>
      rw [Option.map_eq_none_iff] at ho
      subst ho
      have := trimSpaces_head (rest := rest) h (a := '#') (by unfold White; decide)
      simp only [readLine, if_pos this, ite_self]
    | @assign w name num w' v h h' heq hhead hn =>
      rw [Option.map_eq_some_iff] at ho
      obtain ⟨d, rfl, hd⟩ := ho
      cases hd
      obtain ⟨hne, hlast⟩ := IsNumeral.last hn
      have ht : trimSpaces (w ++ (d.name ++ '=' :: num) ++ w') = d.name ++ '=' :: num := by
        apply trimSpaces_eq h h'
        · intro c hc
          cases hname : d.name with
          | nil =>
            rw [hname] at hc
            cases hc
            unfold White
            decide
          | cons x xs =>
            rw [hname] at hc
            cases hc
            exact (hhead c (by rw [hname]; rfl)).2
        · intro c hc
          rw [List.getLast?_append, List.getLast?_cons_of_ne_nil hne] at hc
          cases hl : num.getLast? with
          | none => rw [List.getLast?_eq_none_iff] at hl; exact absurd hl hne
          | some x =>
            rw [hl] at hc
            cases hc
            exact hlast c hl
        · simp
      simp only [readLine, ht]
      rw [if_neg (by simp), if_neg, readDefinition_some.mpr ⟨num, rfl, heq, hn⟩]
      · rfl
      · cases hname : d.name with
        | nil => simp
        | cons x xs =>
          have := (hhead x (by rw [hname]; rfl)).1
          simpa using this

theorem readDefinitions_iff {ls : List (List Char)} {ds : List Definition} :
    readDefinitions ls = some ds ↔
      ∃ os, List.Forall₂ LineSays ls os ∧ ds.map (fun d => (d.name, d.value)) = os.filterMap id := by
  induction ls generalizing ds with
  | nil =>
    simp only [readDefinitions, Option.some.injEq, List.forall₂_nil_left_iff, exists_eq_left, List.filterMap_nil,
      List.map_eq_nil_iff]
    exact eq_comm
  | cons l ls ih =>
    rw [readDefinitions_cons, Option.bind_eq_some_iff]
    constructor
    · rintro ⟨o, ho, h⟩
      rw [Option.map_eq_some_iff] at h
      obtain ⟨ds', hds', rfl⟩ := h
      obtain ⟨os, h1, h2⟩ := ih.mp hds'
      refine ⟨o.map (fun d => (d.name, d.value)) :: os, .cons (readLine_iff.mp ho) h1, ?_⟩
      cases o with
      | none => simpa using h2
      | some d => simpa using h2
    · rintro ⟨os, h1, h2⟩
      cases h1 with
      | @cons _ q _ os' hq hos =>
        have hex : ∃ o : Option Definition, o.map (fun d => (d.name, d.value)) = q := by
          cases q with
          | none => exact ⟨none, rfl⟩
          | some p => exact ⟨some ⟨p.1, p.2⟩, rfl⟩
        obtain ⟨o, rfl⟩ := hex
        refine ⟨o, readLine_iff.mpr hq, ?_⟩
        cases o with
        | none =>
          refine Option.map_eq_some_iff.mpr ⟨ds, ih.mpr ⟨os', hos, by simpa using h2⟩, rfl⟩
        | some d =>
          cases ds with
          | nil => simp at h2
          | cons e es =>
            simp only [List.map_cons, Option.map_some, List.filterMap_cons, id_eq, List.cons.injEq, Prod.mk.injEq] at h2
            refine Option.map_eq_some_iff.mpr ⟨es, ih.mpr ⟨os', hos, h2.2⟩, ?_⟩
            obtain ⟨⟨h3, h4⟩, _⟩ := h2
            cases d
            cases e
            simp only at h3 h4
            subst h3 h4
            rfl

/-! ### The property -/

/-- C97: the macro reads from the file what it says, and fails if some line is neither blank, nor a comment, nor gives a
value below 256 to a name. -/
theorem C97_read (text : List Char) (ds : List Definition) :
    retrieveVersion text = some ds ↔ FileSays text (ds.map fun d => (d.name, d.value)) := by
  unfold retrieveVersion FileSays
  rw [readDefinitions_iff]
  constructor
  · rintro ⟨os, h1, h2⟩
    exact ⟨_, os, lines_iff.mpr rfl, h1, h2⟩
  · rintro ⟨ls, os, h0, h1, h2⟩
    rw [lines_iff.mp h0]
    exact ⟨os, h1, h2⟩

theorem constant_some {ds : List Definition} {n : String} {v : UInt8} (hn : (ds.map Definition.name).Nodup) :
    constant ds n = some v ↔ (n.toList, v) ∈ ds.map (fun d => (d.name, d.value)) := by
  unfold constant
  induction ds with
  | nil => simp
  | cons d ds ih =>
    simp only [List.map_cons, List.nodup_cons] at hn
    simp only [List.find?_cons, List.map_cons, List.mem_cons, Prod.mk.injEq]
    by_cases hd : d.name = n.toList
    · have h1 : (d.name == n.toList) = true := by simpa using hd
      rw [h1]
      simp only [Option.map_some, Option.some.injEq]
      constructor
      · rintro rfl
        exact .inl ⟨hd.symm, rfl⟩
      · rintro (⟨_, h⟩ | h)
        · exact h.symm
        · exfalso
          obtain ⟨e, he, hee⟩ := List.mem_map.mp h
          simp only [Prod.mk.injEq] at hee
          exact hn.1 (List.mem_map.mpr ⟨e, he, by rw [hee.1, hd]⟩)
    · have h1 : (d.name == n.toList) = false := by simpa using hd
      rw [h1]
      simp only
      rw [ih hn.2]
      constructor
      · exact .inr
      · rintro (⟨h, _⟩ | h)
        · exact absurd h.symm hd
        · exact h

/-- C97: an app that was built replies, to both requests for its version and in every state, the three numbers that the
file gives to `APPVERSION_M`, `APPVERSION_N` and `APPVERSION_P`; the file gives each of them once. -/
theorem C97_replied (canDeclare : List Char → Bool) (text : List Char) (cfg : Config)
    (hb : buildVersion canDeclare text = some (cfg.major, cfg.minor, cfg.patch)) (env : Env) (s : Dev)
    (hrun : s.running = true) (ev : Event) (p1 p2 : UInt8) (data : Bytes) :
    ∃ defs m n p, FileSays text defs ∧ (defs.map Prod.fst).Nodup ∧ ("APPVERSION_M".toList, m) ∈ defs ∧
      ("APPVERSION_N".toList, n) ∈ defs ∧ ("APPVERSION_P".toList, p) ∈ defs ∧
      (Carries ev 0x00 p1 p2 data → ∃ kind, (s.step cfg env ev).2.reply = some [kind, m, n, p, 0x90, 0x00]) ∧
      (Carries ev 0x10 p1 p2 data →
        (s.step cfg env ev).2.reply = some ([0, m, n, p, 0] ++ be32 cfg.target ++ [0x90, 0x00])) := by
  unfold buildVersion at hb
  split at hb
  · cases hb
  rename_i ds hds
  split at hb
  swap
  · cases hb
  rename_i hok
  split at hb
  swap
  · cases hb
  rename_i m n p h1 h2 h3
  simp only [Option.some.injEq, Prod.mk.injEq] at hb
  obtain ⟨e1, e2, e3⟩ := hb
  have hfst : ((ds.map fun d => (d.name, d.value)).map Prod.fst) = ds.map Definition.name := by
    rw [List.map_map]; rfl
  have hv := C59_version cfg env s hrun ev p1 p2 data
  refine ⟨_, m, n, p, (C97_read text ds).mp hds, by rw [hfst]; exact hok.2, (constant_some hok.2).mp h1,
    (constant_some hok.2).mp h2, (constant_some hok.2).mp h3, fun h => ?_, fun h => ?_⟩
  · rw [hv.1 h, ← e1, ← e2, ← e3]
    exact ⟨_, rfl⟩
  · rw [hv.2.1 h, ← e1, ← e2, ← e3]

/-- C97: any file that gives a value to each of the three names, and to no name twice, can be built from. -/
theorem C97_builds (canDeclare : List Char → Bool) (text : List Char) (defs : List (List Char × UInt8))
    (hf : FileSays text defs) (hd : ∀ d ∈ defs, canDeclare d.1 = true) (hn : (defs.map Prod.fst).Nodup) (m n p : UInt8)
    (hm : ("APPVERSION_M".toList, m) ∈ defs) (hn' : ("APPVERSION_N".toList, n) ∈ defs)
    (hp : ("APPVERSION_P".toList, p) ∈ defs) : buildVersion canDeclare text = some (m, n, p) := by
  have hdefs : defs = (defs.map fun d => (⟨d.1, d.2⟩ : Definition)).map fun d => (d.name, d.value) := by
    rw [List.map_map]
    exact (List.map_id' defs).symm
  generalize hds : (defs.map fun d => (⟨d.1, d.2⟩ : Definition)) = ds at hdefs
  rw [hdefs] at hf hm hn' hp
  have hnd : (ds.map Definition.name).Nodup := by
    rw [← hds, List.map_map]
    exact hn
  have hall : ds.all (fun d => canDeclare d.name) = true := by
    rw [List.all_eq_true]
    intro d h
    rw [← hds] at h
    obtain ⟨e, he, rfl⟩ := List.mem_map.mp h
    exact hd e he
  unfold buildVersion
  rw [(C97_read text ds).mpr hf]
  simp only
  rw [if_pos ⟨hall, hnd⟩, (constant_some hnd).mpr hm, (constant_some hnd).mpr hn', (constant_some hnd).mpr hp]

/-- The file of the app gives version 3.1.2. White space around, a plus sign and zeros in front do not matter; a space
before the number, a value of 256, a second definition or a line of another form prevent the build. -/
example :
    buildVersion (fun _ => true) versionFile = some (3, 1, 2) ∧
    buildVersion (fun _ => true) "\t APPVERSION_P=002 \r\nAPPVERSION_M=+3\n\n  #x=\nAPPVERSION_N=1".toList = some (3, 1, 2) ∧
    retrieveVersion "A= 1".toList = none ∧ retrieveVersion "A=256".toList = none ∧ retrieveVersion "A".toList = none ∧
    buildVersion (fun _ => true) "APPVERSION_M=3\nAPPVERSION_N=1\nAPPVERSION_P=2\nAPPVERSION_P=2".toList = none := by
  decide +kernel

end Tezos
