import Verif.Spec.Pic
import Verif.Props.Zuit
/-
C109: wherever the app is installed, its code finds its constants, tables, methods, records and globals.
-/
namespace Tezos
open Spec Placed

namespace Pic

theorem Has.le {m : Placed} {o : Nat} {t : Bytes} (h : Has m o t) : o + t.length ≤ m.image.length := by
  obtain ⟨f, b, e, hf⟩ := h
  rw [e]; simp; omega

theorem Has.left {m : Placed} {o : Nat} {s t : Bytes} (h : Has m o (s ++ t)) : Has m o s := by
  obtain ⟨f, b, e, hf⟩ := h
  exact ⟨f, t ++ b, by rw [e]; simp, hf⟩

theorem Has.right {m : Placed} {o : Nat} {s t : Bytes} (h : Has m o (s ++ t)) : Has m (o + s.length) t := by
  obtain ⟨f, b, e, hf⟩ := h
  exact ⟨f ++ s, b, by rw [e]; simp, by simp [hf]⟩

theorem Has.tail {m : Placed} {o : Nat} {c : UInt8} {t : Bytes} (h : Has m o (c :: t)) : Has m (o + 1) t :=
  Has.right (s := [c]) h

theorem byte_has {m : Placed} {o : Nat} {c : UInt8} {t : Bytes} (h : Has m o (c :: t)) :
    m.byte (m.load + o) = .ok c := by
  have hl := Has.le h
  obtain ⟨f, b, e, hf⟩ := h
  have hin : m.inLoad (m.load + o) := by
    unfold inLoad
    rw [List.length_cons] at hl
    omega
  unfold byte
  rw [if_pos hin, Nat.add_sub_cancel_left, e, ← hf]
  simp

theorem bytes_has {m : Placed} {o : Nat} {t : Bytes} (h : Has m o t) : m.bytes (m.load + o) t.length = .ok t := by
  induction t generalizing o with
  | nil => rfl
  | cons c t ih =>
    rw [List.length_cons]
    unfold bytes
    rw [byte_has h, Nat.add_assoc, ih (Has.tail h)]
    rfl

/-- Translation of the address of a place gives the address where it is. -/
theorem pic_names {m : Placed} (ha : Apart m) {a o : Nat} (hn : Names m a o) (ho : o < m.image.length) :
    m.pic a = m.load + o := by
  unfold Placed.pic inLink
  unfold Apart at ha
  rcases hn with rfl | rfl
  · rw [if_pos (by omega)]; omega
  · split <;> omega

theorem pic_has {m : Placed} (ha : Apart m) {a o : Nat} {t : Bytes} (hn : Names m a o) (h : Has m o t) :
    m.bytes (m.pic a) t.length = .ok t := by
  cases t with
  | nil => rfl
  | cons c t =>
    have hl := Has.le h
    rw [List.length_cons] at hl
    rw [pic_names ha hn (by omega)]
    exact bytes_has h

theorem ofLE_le32 {n : Nat} (h : n < 2 ^ 32) : ofLE (le32 n) = n := by
  simp only [le32, ofLE, UInt8.toNat_ofNat']
  omega

theorem word_has {m : Placed} {o n : Nat} (hn : n < 2 ^ 32) (h : Has m o (le32 n)) : m.word (m.load + o) = .ok n := by
  unfold word
  have e : m.bytes (m.load + o) 4 = .ok (le32 n) := bytes_has h
  rw [e]
  show Except.ok (ofLE (le32 n)) = _
  rw [ofLE_le32 hn]

theorem refAt_has {m : Placed} {o p n : Nat} (hp : p < 2 ^ 32) (hn : n < 2 ^ 32) (h : Has m o (le32 p ++ le32 n)) :
    m.refAt (m.load + o) = .ok ⟨p, n⟩ := by
  unfold refAt
  have h2 : m.word (m.load + o + 4) = .ok n := word_has hn (Has.right h)
  rw [word_has hp (Has.left h), h2]
  rfl

/-- A stored reference, fetched and translated, refers to the bytes it was meant to. -/
theorem refAt_ref {m : Placed} (ha : Apart m) {o : Nat} {t : Bytes} (h : HasRef m o t) :
    ∃ r, m.refAt (m.load + o) = .ok r ∧ m.deref (m.sliceInner r) = .ok t := by
  obtain ⟨p, hp, h1, h2, h3⟩ := h
  exact ⟨⟨m.link + p, t.length⟩, refAt_has h1 h2 h3, pic_has ha (.inl rfl) hp⟩

theorem probe_eq {m : Placed} (ha : Apart m) {lay : Layout} {o : Nat} {table : List Baker} (ht : HasTable m lay o table)
    {i : Nat} {b : Baker} (hb : table[i]? = some b) (pfx hash : Bytes) :
    m.probe lay (m.load + o + i * lay.size) pfx hash = .ok (b.cmp pfx hash) := by
  obtain ⟨h1, h2, -⟩ := ht i b hb
  obtain ⟨r1, e1, d1⟩ := refAt_ref ha h1
  obtain ⟨r2, e2, d2⟩ := refAt_ref ha h2
  have a1 : m.load + o + i * lay.size + lay.pfx = m.load + (o + i * lay.size + lay.pfx) := by omega
  have a2 : m.load + o + i * lay.size + lay.hash = m.load + (o + i * lay.size + lay.hash) := by omega
  unfold probe
  rw [a1, a2, e1, e2]
  show (do
    let pb ← m.deref (m.sliceInner r1)
    match bytesCmp pb pfx with
    | .eq => do
      let hb ← m.deref (m.sliceInner r2)
      Except.ok (bytesCmp hb hash)
    | o => Except.ok o) = _
  rw [d1, d2]
  unfold Baker.cmp
  show (match bytesCmp b.pfx pfx with | .eq => _ | o => _) = _
  cases bytesCmp b.pfx pfx <;> rfl

theorem search_eq {cmp : Nat → Ordering} {cmpM : Nat → Except MemErr Ordering} (n : Nat)
    (h : ∀ i, i < n → cmpM i = .ok (cmp i)) (f l r : Nat) (hr : r ≤ n) :
    search cmpM f l r = .ok (binarySearch cmp f l r) := by
  induction f generalizing l r with
  | zero => rfl
  | succ f ih =>
    unfold search binarySearch
    split
    · simp only
      rw [h (l + (r - l) / 2) (by omega)]
      show (match cmp (l + (r - l) / 2) with | .lt => _ | .gt => _ | .eq => _) = _
      cases cmp (l + (r - l) / 2) with
      | lt => exact ih _ _ hr
      | gt => exact ih _ _ (by omega)
      | eq => rfl
    · rfl

end Pic
open Pic

/-- C109: the bytes of a constant, read through `PIC`, are those the source has, wherever the app is installed and
whichever of the two addresses the code has. Also for a reference to one value and for a static. -/
theorem C109_constant (m : Placed) (ha : Apart m) (o : Nat) (t : Bytes) (h : Has m o t) (a : Nat) (hn : Names m a o) :
    m.deref (m.sliceInner ⟨a, t.length⟩) = .ok t ∧ m.bytes (m.intoInner a) t.length = .ok t ∧
      m.bytes (m.getRef a) t.length = .ok t :=
  ⟨pic_has ha hn h, pic_has ha hn h, pic_has ha hn h⟩

/-- C109: so is a text given to `pic_str!`: it is read as it is in the source, with a NUL after it unless there is one
already or none is wanted. What a display shows of it is what is before the first NUL. -/
theorem C109_text (m : Placed) (ha : Apart m) (s : Literal) (hu : ∀ t, s = .str t → isUtf8 t = true) (skip : Bool)
    (o a : Nat) (h : Has m o (picStr s skip).bytes) (hn : Names m a o) :
    ∃ r t, picStrRef m s skip a = .ok r ∧ m.deref r = .ok t ∧
      (t = s.bytes ∨ (skip = false ∧ s.bytes.getLast? ≠ some 0 ∧ t = s.bytes ++ [0])) ∧
      (skip = false → t.getLast? = some 0) ∧ cString t = cString s.bytes := by
  have hc : ∀ t : Bytes, cString (t ++ [0]) = cString t := by
    intro t
    unfold cString
    induction t with
    | nil => rfl
    | cons c t ih =>
      rw [List.cons_append, List.takeWhile_cons, List.takeWhile_cons, ih]
  have hread := pic_has ha hn h
  have hb : (picStr s skip).bytes = s.bytes ∨
      (skip = false ∧ s.bytes.getLast? ≠ some 0 ∧ (picStr s skip).bytes = s.bytes ++ [0]) := by
    unfold picStr
    cases skip with
    | true => exact .inl rfl
    | false =>
      cases s with
      | str t =>
        simp only [Bool.false_eq_true, if_false, Literal.terminate, Literal.bytes, true_and]
        by_cases hl : t.getLast? = some 0
        · exact .inl (if_pos hl)
        · exact .inr ⟨hl, if_neg hl⟩
      | bstr t =>
        simp only [Bool.false_eq_true, if_false, Literal.terminate, Literal.bytes, true_and]
        by_cases hl : t.getLast? = some 0
        · exact .inl (if_pos hl)
        · exact .inr ⟨hl, if_neg hl⟩
  refine ⟨⟨m.pic a, (picStr s skip).bytes.length⟩, (picStr s skip).bytes, ?_, hread, hb, ?_, ?_⟩
  · have hu' : ∀ t, picStr s skip = .str t → isUtf8 t = true := by
      intro t ht
      cases s with
      | bstr t' => unfold picStr at ht; cases skip <;> simp [Literal.terminate] at ht
      | str t' =>
        rcases hb with e | ⟨-, -, e⟩
        · rw [ht] at e
          have e' : t = t' := e
          rw [e']
          exact hu _ rfl
        · rw [ht] at e
          have : t = t' ++ List.replicate 1 0 := e
          rw [this, isUtf8_zeros]
          exact hu _ rfl
    unfold picStrRef
    cases hp : picStr s skip with
    | bstr t => rfl
    | str t =>
      rw [hp] at hread
      have hd : m.deref (m.sliceInner ⟨a, t.length⟩) = .ok t := hread
      show m.strInner ⟨a, t.length⟩ = _
      unfold strInner
      simp only
      rw [hd]
      show (if isUtf8 t = true then _ else _) = _
      rw [if_pos (hu' t hp)]
      rfl
  · intro hs
    rcases hb with e | ⟨-, -, e⟩
    · by_contra hl
      rw [e] at hl
      unfold picStr at e
      rw [hs] at e
      cases s with
      | str t =>
        simp only [Bool.false_eq_true, if_false, Literal.terminate, Literal.bytes] at e hl
        rw [if_neg hl] at e
        simp at e
      | bstr t =>
        simp only [Bool.false_eq_true, if_false, Literal.terminate, Literal.bytes] at e hl
        rw [if_neg hl] at e
        simp at e
    · rw [e]; simp
  · rcases hb with e | ⟨-, -, e⟩
    · rw [e]
    · rw [e, hc]

/-- C109: the lookup of a baker in the table in memory finds what the lookup in the table of the source finds: no memory
is touched that must not be, no text is taken for garbage, and the name found has the bytes of the one in the source. -/
theorem C109_bakers (m : Placed) (ha : Apart m) (lay : Layout) (table : List Baker) (o : Nat)
    (ht : HasTable m lay o table) (hu : ∀ b ∈ table, isUtf8 b.name = true) (a : Nat) (hn : Names m a o)
    (pfx hash : Bytes) :
    match bakerLookupIn table pfx hash with
    | none => m.bakerLookup lay ⟨a, table.length⟩ pfx hash = .ok none
    | some name => ∃ r, m.bakerLookup lay ⟨a, table.length⟩ pfx hash = .ok (some r) ∧ m.deref r = .ok name := by
  cases hne : table with
  | nil => rfl
  | cons b0 bs =>
    rw [← hne]
    have ho : o < m.image.length := by
      obtain ⟨⟨p, -, -, -, h⟩, -⟩ := ht 0 b0 (by rw [hne]; rfl)
      have := Has.le h
      simp [le32] at this
      omega
    have hp : m.manual a = m.load + o := pic_names ha hn ho
    have hs : search (fun i => m.probe lay (m.manual a + i * lay.size) pfx hash) (table.length + 1) 0 table.length =
        .ok (binarySearch (tableCmp table pfx hash) (table.length + 1) 0 table.length) := by
      refine search_eq table.length (fun i hi => ?_) _ _ _ (Nat.le_refl _)
      have hb : table[i]? = some table[i] := List.getElem?_eq_getElem hi
      rw [hp]
      show m.probe lay (m.load + o + i * lay.size) pfx hash = _
      rw [probe_eq ha ht hb]
      unfold tableCmp
      rw [hb]
    unfold bakerLookupIn
    cases hk : binarySearch (tableCmp table pfx hash) (table.length + 1) 0 table.length with
    | none =>
      unfold Placed.bakerLookup
      simp only
      rw [hs, hk]
      rfl
    | some i =>
      have hi := (binarySearch_sound _ _ _ _ _ hk).2.2
      have hb : table[i]? = some table[i] := List.getElem?_eq_getElem hi
      simp only [hb, Option.map_some]
      obtain ⟨r, e, d⟩ := refAt_ref ha (ht i _ hb).2.2
      refine ⟨m.sliceInner r, ?_, d⟩
      unfold Placed.bakerLookup
      simp only
      rw [hs, hk]
      show (do
        let name ← m.refAt (m.manual a + i * lay.size + lay.name)
        let name ← m.strInner name
        Except.ok (some name)) = _
      have a1 : m.load + o + i * lay.size + lay.name = m.load + (o + i * lay.size + lay.name) := by omega
      rw [hp, a1, e]
      show (do
        let name ← m.strInner r
        Except.ok (some name)) = _
      unfold strInner
      simp only
      rw [d]
      show (do
        let name ← (if isUtf8 table[i].name = true then _ else _)
        Except.ok (some name)) = _
      rw [if_pos (hu _ (List.getElem_mem hi))]
      rfl

theorem Pic.names_utf8 (table : List Baker) (hk : table = knownBakers) : ∀ b ∈ table, isUtf8 b.name = true := by
  rw [hk]
  decide +kernel

theorem Pic.lookup_eq (table : List Baker) (hk : table = knownBakers) (pfx hash : Bytes) :
    Tezos.bakerLookup pfx hash = bakerLookupIn table pfx hash := by
  rw [hk, Tezos.bakerLookup]

/-- C109: so in the app, for the table of known bakers. -/
theorem C109_known_bakers (m : Placed) (ha : Apart m) (lay : Layout) (o : Nat) (ht : HasTable m lay o knownBakers)
    (a : Nat) (hn : Names m a o) (pfx hash : Bytes) :
    match Tezos.bakerLookup pfx hash with
    | none => m.bakerLookup lay ⟨a, knownBakers.length⟩ pfx hash = .ok none
    | some name => ∃ r, m.bakerLookup lay ⟨a, knownBakers.length⟩ pfx hash = .ok (some r) ∧ m.deref r = .ok name := by
  generalize hk : knownBakers = table at ht ⊢
  rw [Pic.lookup_eq table hk.symm]
  exact C109_bakers m ha lay table o ht (Pic.names_utf8 table hk.symm) a hn pfx hash

/-- C109: a method called on the view that is shown is that method of the type of the view, on that view: an approval
never runs the method for a rejection, nor one of another type. -/
theorem C109_methods {τ : Type} (m : Placed) (ha : Apart m) (code : Nat → Option (τ × Method)) (pos : Method → Nat)
    (o : Nat) (ty : τ) (h : HasMethods m code pos o ty) (a : Nat) (hn : Names m a o) (obj : Nat) (f : Method) :
    m.invoke code pos (m.dynView obj a) f = .ok ((ty, f), obj) := by
  have ho : o < m.image.length := by
    obtain ⟨p, -, -, -, h⟩ := h f
    have := Has.le h
    simp [le32] at this
    omega
  obtain ⟨p, hp, hp2, hc, hw⟩ := h f
  unfold Placed.invoke dynView intoInner
  simp only
  have a1 : m.load + o + pos f = m.load + (o + pos f) := by omega
  rw [pic_names ha hn ho, a1, word_has hp2 hw]
  have hm : m.manual (m.link + p) = m.load + p := pic_names ha (.inl rfl) hp
  have hin : m.inLoad (m.load + p) := by unfold inLoad; omega
  show (do
    let fn ← m.call code (m.manual (m.link + p))
    Except.ok (fn, obj)) = _
  rw [hm]
  unfold call
  rw [if_pos hin, Nat.add_sub_cancel_left, hc]
  rfl

/-- C109: a record in flash reached through `PIC` is written where it is read, and nothing else of the image or of the
other memory changes: after a write that fits, the record reads as before but for the bytes written. -/
theorem C109_record (m : Placed) (ha : Apart m) (o : Nat) (old : Bytes) (h : Has m o old) (a : Nat) (hn : Names m a o)
    (frm : Nat) (src : Bytes) :
    (old.length < frm + src.length → m.recordWrite a old.length frm src = none) ∧
      (frm + src.length ≤ old.length → 0 < old.length →
        ∃ m', m.recordWrite a old.length frm src = some (.ok m') ∧
          m'.recordRead a old.length = .ok (old.take frm ++ src ++ old.drop (frm + src.length)) ∧
          m'.link = m.link ∧ m'.load = m.load ∧ m'.rest = m.rest ∧ m'.image.length = m.image.length ∧
          ∀ x, x < o + frm ∨ o + frm + src.length ≤ x → m'.image[x]? = m.image[x]?) := by
  refine ⟨fun hlt => by unfold recordWrite; rw [if_pos hlt], fun hle hpos => ?_⟩
  have hl := Has.le h
  have hp : m.getRef a = m.load + o := pic_names ha hn (by omega)
  obtain ⟨front, back, e, hf⟩ := h
  have himg : m.image.take (o + frm) ++ src ++ m.image.drop (o + frm + src.length) =
      front ++ (old.take frm ++ src ++ old.drop (frm + src.length)) ++ back := by
    rw [e, ← hf]
    have t1 : (front ++ old ++ back).take (front.length + frm) = front ++ old.take frm := by
      rw [List.append_assoc, List.take_length_add_append, List.take_append_of_le_length (by omega)]
    have t2 : (front ++ old ++ back).drop (front.length + frm + src.length) = old.drop (frm + src.length) ++ back := by
      rw [List.append_assoc, Nat.add_assoc, List.drop_length_add_append, List.drop_append_of_le_length (by omega)]
    rw [t1, t2]
    simp
  have hlen : (old.take frm ++ src ++ old.drop (frm + src.length)).length = old.length := by simp; omega
  let m' : Placed := { m with image := m.image.take (o + frm) ++ src ++ m.image.drop (o + frm + src.length) }
  have hml : m'.image.length = m.image.length := by
    show (m.image.take (o + frm) ++ src ++ m.image.drop (o + frm + src.length)).length = _
    simp; omega
  refine ⟨m', ?_, ?_, rfl, rfl, rfl, hml, ?_⟩
  · unfold recordWrite
    rw [if_neg (by omega), hp]
    unfold nvmWrite
    rw [if_pos (by omega)]
    have : m.load + o + frm - m.load = o + frm := by omega
    rw [this]
  · have ha' : Apart m' := by unfold Apart; rw [hml]; exact ha
    have h' : Has m' o (old.take frm ++ src ++ old.drop (frm + src.length)) := ⟨front, back, himg, hf⟩
    have := pic_has ha' (a := a) hn h'
    rw [hlen] at this
    exact this
  · intro x hx
    show (m.image.take (o + frm) ++ src ++ m.image.drop (o + frm + src.length))[x]? = _
    rw [List.append_assoc]
    rcases hx with hx | hx
    · rw [List.getElem?_append_left (by simp; omega), List.getElem?_take_of_lt hx]
    · have e1 : (m.image.take (o + frm)).length = o + frm := by simp; omega
      rw [List.getElem?_append_right (by omega), e1, List.getElem?_append_right (by omega), List.getElem?_drop]
      congr 1
      omega

/-! ### Globals -/

namespace Pic

theorem pokes_ram {m : Placed} {a : Nat} {t : Bytes} (h : InRam m a t.length) :
    m.pokes a t = .ok { m with rest := fun x => if a ≤ x ∧ x < a + t.length then t[x - a]? else m.rest x } := by
  induction t generalizing m a with
  | nil =>
    unfold pokes
    congr 1
    have : (fun x => if a ≤ x ∧ x < a + ([] : Bytes).length then ([] : Bytes)[x - a]? else m.rest x) = m.rest := by
      funext x
      rw [if_neg (by simp)]
    rw [this]
  | cons c t ih =>
    rw [List.length_cons] at h
    unfold pokes
    obtain ⟨h1, -, h3⟩ := h a (Nat.le_refl _) (by omega)
    have hp : m.poke a c = .ok { m with rest := fun x => if x = a then some c else m.rest x } := by
      unfold poke
      rw [if_neg]
      rintro (h | h)
      · exact h1 h
      · rw [h] at h3; cases h3
    rw [hp]
    show ({ m with rest := fun x => if x = a then some c else m.rest x } : Placed).pokes (a + 1) t = _
    rw [ih]
    · congr 1
      have : (fun x => if a + 1 ≤ x ∧ x < a + 1 + t.length then t[x - (a + 1)]?
            else (if x = a then some c else m.rest x)) =
          (fun x => if a ≤ x ∧ x < a + (c :: t).length then (c :: t)[x - a]? else m.rest x) := by
        funext x
        rw [List.length_cons]
        by_cases hx : x = a
        · subst hx
          rw [if_neg (by omega), if_pos rfl, if_pos (by omega)]
          simp
        · by_cases hy : a + 1 ≤ x ∧ x < a + 1 + t.length
          · rw [if_pos hy, if_pos (by omega)]
            have : x - a = (x - (a + 1)) + 1 := by omega
            rw [this, List.getElem?_cons_succ]
          · rw [if_neg hy, if_neg hx, if_neg (by omega)]
      rw [this]
    · intro x hx hx2
      obtain ⟨g1, g2, g3⟩ := h x (by omega) (by omega)
      refine ⟨g1, g2, ?_⟩
      show (if x = a then some c else m.rest x).isSome
      rw [if_neg (by omega)]
      exact g3

theorem bytes_ram {m : Placed} {a : Nat} {t : Bytes} (h1 : ∀ x, a ≤ x → x < a + t.length → ¬ m.inLoad x)
    (h2 : ∀ i, i < t.length → m.rest (a + i) = t[i]?) : m.bytes a t.length = .ok t := by
  induction t generalizing a with
  | nil => rfl
  | cons c t ih =>
    rw [List.length_cons] at h1 h2
    rw [List.length_cons]
    unfold bytes byte
    have h0 : m.rest a = some c := h2 0 (by omega)
    rw [if_neg (h1 a (Nat.le_refl _) (by omega)), h0]
    rw [ih (fun x hx hx2 => h1 x (by omega) (by omega)) (fun i hi => by
      have := h2 (i + 1) (by omega)
      rw [List.getElem?_cons_succ] at this
      rw [← this]
      congr 1
      omega)]
    rfl

theorem pic_ram {m : Placed} {a n : Nat} (hn : 0 < n) (h : InRam m a n) : m.pic a = a :=
  if_neg (h a (Nat.le_refl _) (by omega)).2.1

end Pic

/-- C109: a lazily initialized global in RAM, its sentinel and value reached through `PIC`: while the sentinel is not set,
the first use stores what the initializer gives, sets the sentinel, gives that value, and changes nothing else; a later
use gives the value stored there, whatever the initializer would give. -/
theorem C109_global (m : Placed) (s v : Nat) (value : Bytes) (hv : 0 < value.length) (hs : InRam m s 1)
    (hr : InRam m v value.length) (hd : s < v ∨ v + value.length ≤ s) (hz : m.rest s ≠ some 1) :
    ∃ m', m.globalGet s v value = .ok (m', value) ∧ m'.image = m.image ∧ m'.link = m.link ∧ m'.load = m.load ∧
      m'.rest s = some 1 ∧ (∀ x, x ≠ s → ¬ (v ≤ x ∧ x < v + value.length) → m'.rest x = m.rest x) ∧
      ∀ other : Bytes, other.length = value.length → m'.globalGet s v other = .ok (m', value) := by
  obtain ⟨s1, s2, s3⟩ := hs s (Nat.le_refl _) (by omega)
  have ps : m.getRef s = s := pic_ram (by decide) hs
  have pv : m.intoInner v = v := pic_ram hv hr
  let m1 : Placed := { m with rest := fun x => if v ≤ x ∧ x < v + value.length then value[x - v]? else m.rest x }
  let m' : Placed := { m1 with rest := fun x => if x = s then some 1 else m1.rest x }
  have e1 : m.pokes v value = .ok m1 := pokes_ram hr
  have r1 : m1.rest s = m.rest s := if_neg (by omega)
  have e2 : m1.poke s 1 = .ok m' := by
    unfold poke
    rw [if_neg]
    rintro (h | h)
    · exact s1 h
    · rw [r1] at h; rw [h] at s3; cases s3
  have rs : m'.rest s = some 1 := if_pos rfl
  have rv : m'.bytes v value.length = .ok value := by
    refine bytes_ram (fun x hx hx2 => (hr x hx hx2).1) (fun i hi => ?_)
    show (if v + i = s then some 1 else m1.rest (v + i)) = _
    rw [if_neg (by omega)]
    show (if v ≤ v + i ∧ v + i < v + value.length then value[v + i - v]? else m.rest (v + i)) = _
    rw [if_pos (by omega), Nat.add_sub_cancel_left]
  have pv' : m'.intoInner v = v := pv
  refine ⟨m', ?_, rfl, rfl, rfl, rs, ?_, ?_⟩
  · obtain ⟨b, hb⟩ := Option.isSome_iff_exists.mp s3
    have hby : m.byte s = .ok b := by
      unfold byte
      rw [if_neg s1, hb]
    have hb1 : b ≠ 1 := by
      rintro rfl
      exact hz hb
    have hi : m.globalInit s v value = .ok m' := by
      unfold globalInit
      simp only
      rw [ps, hby]
      show (if b ≠ 1 then _ else _) = _
      rw [if_pos hb1, pv, e1]
      exact e2
    unfold globalGet
    rw [hi]
    show (do
      let t ← m'.bytes (m'.intoInner v) value.length
      Except.ok (m', t)) = _
    rw [pv', rv]
    rfl
  · intro x hx hx2
    show (if x = s then some 1 else m1.rest x) = _
    rw [if_neg hx]
    exact if_neg hx2
  · intro other ho
    have ps' : m'.getRef s = s := ps
    have hby : m'.byte s = .ok 1 := by
      unfold byte
      rw [if_neg (show ¬ m'.inLoad s from s1), rs]
    have hi : m'.globalInit s v other = .ok m' := by
      unfold globalInit
      simp only
      rw [ps', hby]
      rfl
    unfold globalGet
    rw [hi]
    show (do
      let t ← m'.bytes (m'.intoInner v) other.length
      Except.ok (m', t)) = _
    rw [pv', ho, rv]
    rfl

/-! ### What is needed for it -/

/-- C109: that the app is installed clear of where it was linked (or just there) is needed: otherwise there is a place in
the image whose address, computed by the code relative to itself, `PIC` turns into that of another place. -/
theorem C109_apart_needed (m : Placed) (h : ¬ Apart m) :
    ∃ o, o < m.image.length ∧ m.pic (m.load + o) ≠ m.load + o := by
  unfold Apart at h
  have : ¬ m.load = m.link ∧ ¬ m.load + m.image.length ≤ m.link ∧ ¬ m.link + m.image.length ≤ m.load := by
    refine ⟨fun e => h (.inl e), fun e => h (.inr (.inl e)), fun e => h (.inr (.inr e))⟩
  rcases Nat.lt_or_ge m.load m.link with hl | hl
  · refine ⟨m.link - m.load, by omega, ?_⟩
    unfold Placed.pic inLink
    rw [if_pos (by omega)]
    omega
  · refine ⟨0, by omega, ?_⟩
    unfold Placed.pic inLink
    rw [if_pos (by omega)]
    omega

/-- C109: the translation is needed, and the tests cannot see whether it is done: with `PIC` doing nothing, as in the mock
they run on, the address of a constant as it was linked cannot be read on a device where nothing is readable there. -/
theorem C109_mock_differs (m : Placed) (hc : m.load + m.image.length ≤ m.link ∨ m.link + m.image.length ≤ m.load)
    (hr : ∀ x, m.inLink x → m.rest x = none) (o : Nat) (t : Bytes) (h : Has m o t) (ht : t ≠ []) :
    m.bytes (m.link + o) t.length = .error .fault ∧ m.bytes (m.intoInner (m.link + o)) t.length = .ok t := by
  refine ⟨?_, pic_has (.inr hc) (.inl rfl) h⟩
  cases t with
  | nil => exact absurd rfl ht
  | cons c t =>
    have hl := Has.le h
    rw [List.length_cons] at hl ⊢
    unfold bytes byte
    rw [if_neg (by unfold inLoad; omega), hr _ (by unfold inLink; omega)]
    rfl

/-! ### A case -/

namespace Pic.Demo

attribute [local irreducible] knownBakers

/-- The table of bakers as a linker could place it: the texts, from the place `o` on, and the entries with references to
them, prefix, hash and name. -/
def place (link : Nat) : Nat → List Baker → Bytes × Bytes
  | _, [] => ([], [])
  | o, b :: bs =>
    let p := o + b.pfx.length
    let q := p + b.hash.length
    let r := place link (q + b.name.length) bs
    (b.pfx ++ b.hash ++ b.name ++ r.1,
      le32 (link + o) ++ le32 b.pfx.length ++ (le32 (link + p) ++ le32 b.hash.length) ++
        (le32 (link + q) ++ le32 b.name.length) ++ r.2)

def layout : Layout := ⟨0, 8, 16, 24⟩

/-- An image linked for 0xC0D00000 and installed at 0x10000, with some code, a text, the methods of two types of views,
the known bakers and some RAM. -/
def texts : Bytes := (place 0xC0D00000 100 knownBakers).1

def entries : Bytes := (place 0xC0D00000 100 knownBakers).2

def word (n : Nat) : Bytes := le32 (0xC0D00000 + n)

/-- Places 0 to 19: code; 20 to 39 and 40 to 59: methods of two types; 60 to 67: a text; 68 to 99: a record. -/
def front : Bytes :=
  List.replicate 20 0xBF ++ (word 1 ++ word 3 ++ word 5 ++ word 7 ++ word 9) ++
    (word 11 ++ word 13 ++ word 15 ++ word 17 ++ word 19) ++ ascii "Amount" ++ [0, 0] ++ List.replicate 32 0xFF

def m : Placed :=
  ⟨0xC0D00000, front ++ texts ++ entries, 0x10000, fun x => if 0x20000 ≤ x ∧ x < 0x20100 then some 0 else none⟩

def code (p : Nat) : Option (Bool × Method) :=
  match p with
  | 1 => some (false, .numItems) | 3 => some (false, .renderItem) | 5 => some (false, .accept)
  | 7 => some (false, .reject) | 9 => some (false, .drop) | 11 => some (true, .numItems)
  | 13 => some (true, .renderItem) | 15 => some (true, .accept) | 17 => some (true, .reject) | 19 => some (true, .drop)
  | _ => none

def pos : Method → Nat
  | .numItems => 0 | .renderItem => 4 | .accept => 8 | .reject => 12 | .drop => 16

theorem has_of {m : Placed} {o : Nat} {t : Bytes} (h : o ≤ m.image.length)
    (e : (m.image.drop o).take t.length = t) : Has m o t :=
  ⟨m.image.take o, (m.image.drop o).drop t.length, by
    conv => rhs; rw [List.append_assoc]; arg 2; arg 1; rw [← e]
    rw [List.take_append_drop, List.take_append_drop], by simp; omega⟩

theorem hasRef_of {m : Placed} (hl : m.link + m.image.length < 2 ^ 32) {o p : Nat} {t : Bytes} (ht : Has m p t)
    (hr : Has m o (le32 (m.link + p) ++ le32 t.length)) : HasRef m o t := by
  have := Has.le ht
  exact ⟨p, ht, by omega, by omega, hr⟩

/-- An image with the texts and entries made by `place` has the table. -/
theorem place_table {m : Placed} (hl : m.link + m.image.length < 2 ^ 32) (table : List Baker) (pre mid post : Bytes)
    (e : m.image = pre ++ (place m.link pre.length table).1 ++ mid ++ (place m.link pre.length table).2 ++ post) :
    HasTable m layout (pre.length + (place m.link pre.length table).1.length + mid.length) table := by
  induction table generalizing pre mid with
  | nil => intro i b hb; simp at hb
  | cons c cs ih =>
    have h4 : ∀ n, (le32 n).length = 4 := fun _ => rfl
    generalize hr : place m.link (pre.length + c.pfx.length + c.hash.length + c.name.length) cs = r at *
    have e1 : (place m.link pre.length (c :: cs)).1 = c.pfx ++ c.hash ++ c.name ++ r.1 := by rw [← hr]; rfl
    have e2 : (place m.link pre.length (c :: cs)).2 =
        le32 (m.link + pre.length) ++ le32 c.pfx.length ++
          (le32 (m.link + (pre.length + c.pfx.length)) ++ le32 c.hash.length) ++
          (le32 (m.link + (pre.length + c.pfx.length + c.hash.length)) ++ le32 c.name.length) ++ r.2 := by
      rw [← hr]; rfl
    rw [e1, e2] at e
    rw [e1]
    have i1 : Has m pre.length c.pfx := ⟨pre, _, by rw [e]; simp only [List.append_assoc]; rfl, rfl⟩
    have i2 : Has m (pre.length + c.pfx.length) c.hash :=
      ⟨pre ++ c.pfx, _, by rw [e]; simp only [List.append_assoc]; rfl, by simp⟩
    have i3 : Has m (pre.length + c.pfx.length + c.hash.length) c.name :=
      ⟨pre ++ c.pfx ++ c.hash, _, by rw [e]; simp only [List.append_assoc]; rfl, by simp; omega⟩
    let a := pre ++ (c.pfx ++ c.hash ++ c.name ++ r.1) ++ mid
    have ha : a.length = pre.length + (c.pfx ++ c.hash ++ c.name ++ r.1).length + mid.length := by simp [a]; omega
    have r1 : HasRef m a.length c.pfx :=
      hasRef_of hl i1 ⟨a, _, by rw [e]; simp only [a, List.append_assoc]; rfl, rfl⟩
    have r2 : HasRef m (a.length + 8) c.hash :=
      hasRef_of hl i2 ⟨a ++ (le32 (m.link + pre.length) ++ le32 c.pfx.length), _, by
        rw [e]; simp only [a, List.append_assoc]; rfl, by simp [h4]⟩
    have r3 : HasRef m (a.length + 16) c.name :=
      hasRef_of hl i3 ⟨a ++ (le32 (m.link + pre.length) ++ le32 c.pfx.length) ++
        (le32 (m.link + (pre.length + c.pfx.length)) ++ le32 c.hash.length), _, by
        rw [e]; simp only [a, List.append_assoc]; rfl, by simp [h4]⟩
    rw [← ha]
    intro i b hb
    cases i with
    | zero =>
      simp only [List.getElem?_cons_zero, Option.some.injEq] at hb
      subst hb
      simp only [Nat.zero_mul, Nat.add_zero]
      exact ⟨r1, r2, r3⟩
    | succ i =>
      have hp : (pre ++ c.pfx ++ c.hash ++ c.name).length =
          pre.length + c.pfx.length + c.hash.length + c.name.length := by simp; omega
      have := ih (pre ++ c.pfx ++ c.hash ++ c.name)
        (mid ++ (le32 (m.link + pre.length) ++ le32 c.pfx.length ++
          (le32 (m.link + (pre.length + c.pfx.length)) ++ le32 c.hash.length) ++
          (le32 (m.link + (pre.length + c.pfx.length + c.hash.length)) ++ le32 c.name.length)))
        (by rw [hp, hr, e]; simp only [List.append_assoc]) i b (by simpa using hb)
      rw [hp, hr] at this
      have el : pre.length + c.pfx.length + c.hash.length + c.name.length + r.1.length +
          (mid ++ (le32 (m.link + pre.length) ++ le32 c.pfx.length ++
          (le32 (m.link + (pre.length + c.pfx.length)) ++ le32 c.hash.length) ++
          (le32 (m.link + (pre.length + c.pfx.length + c.hash.length)) ++ le32 c.name.length))).length + i * 24 =
          a.length + (i + 1) * 24 := by
        rw [ha]
        simp only [List.length_append, h4]
        omega
      have hs : layout.size = 24 := rfl
      rw [hs, el] at this
      rw [hs]
      exact this

theorem m_length : m.image.length < 0x10000 := by decide +kernel

theorem front_length : front.length = 100 := by decide +kernel

/-- What is in the first part. -/
theorem has_front {o : Nat} {t : Bytes} (e : (front.drop o).take t.length = t) (h : o + t.length ≤ 100) : Has m o t := by
  have hf := front_length
  have hi : m.image = front ++ (texts ++ entries) := List.append_assoc _ _ _
  refine has_of (by rw [hi, List.length_append]; omega) ?_
  rw [hi, List.drop_append_of_le_length (by omega), List.take_append_of_le_length (by simp; omega)]
  exact e

theorem m_apart : Apart m := by
  have hl := m_length
  have e1 : m.load = 0x10000 := rfl
  have e2 : m.link = 0xC0D00000 := rfl
  exact .inr (.inl (by omega))

/-- The installation is one of those considered, and moves the image. -/
example : Apart m ∧ m.load ≠ m.link := ⟨m_apart, by decide⟩

theorem m_table_of (table : List Baker) (m : Placed) (hm : m.link = 0xC0D00000) (hl : m.image.length < 0x10000)
    (e : m.image = front ++ (place 0xC0D00000 100 table).1 ++ (place 0xC0D00000 100 table).2) :
    HasTable m layout (100 + (place 0xC0D00000 100 table).1.length) table := by
  have hf := front_length
  have h := place_table (m := m) (by omega) table front [] []
    (by rw [hf, hm, List.append_nil, List.append_nil]; exact e)
  rw [hf, hm] at h
  exact h

/-- It has the table of known bakers, all of it. -/
theorem m_table : HasTable m layout (100 + texts.length) knownBakers := m_table_of knownBakers m rfl m_length rfl

/-- A lookup there, with the address of the table as linked: it finds the name of a baker, elsewhere in the image. -/
example : ∃ r, m.bakerLookup layout ⟨0xC0D00000 + (100 + texts.length), knownBakers.length⟩ [6, 161, 159]
      [0, 47, 231, 219, 82, 24, 161, 214, 116, 200, 141, 217, 217, 66, 26, 198, 11, 142, 179, 229] = .ok (some r) ∧
    m.deref r = .ok (ascii "Tezos Seoul") := by
  have h := C109_known_bakers m m_apart layout _ m_table _ (.inl rfl) [6, 161, 159]
    [0, 47, 231, 219, 82, 24, 161, 214, 116, 200, 141, 217, 217, 66, 26, 198, 11, 142, 179, 229]
  have e : Tezos.bakerLookup [6, 161, 159]
      [0, 47, 231, 219, 82, 24, 161, 214, 116, 200, 141, 217, 217, 66, 26, 198, 11, 142, 179, 229] =
      some (ascii "Tezos Seoul") := by decide +kernel
  rw [e] at h
  exact h

/-- A title, terminated by the macro, by its address as the code computes it. -/
example : Has m 60 (picStr (.str (ascii "Amount")) false).bytes ∧ Names m (0x10000 + 60) 60 ∧
    isUtf8 (ascii "Amount") = true := ⟨has_front (by decide +kernel) (by decide), .inr rfl, by decide +kernel⟩

/-- The methods of the second type of views are found, although the other type has methods too. -/
theorem m_methods : HasMethods m code pos 40 true := by
  have hm : ∀ p, p < 100 → p < m.image.length := by
    intro p hp
    have hf := front_length
    show p < (front ++ texts ++ entries).length
    rw [List.length_append, List.length_append]
    omega
  intro f
  cases f
  · exact ⟨11, hm _ (by decide), by decide, rfl, has_front (by decide +kernel) (by decide)⟩
  · exact ⟨13, hm _ (by decide), by decide, rfl, has_front (by decide +kernel) (by decide)⟩
  · exact ⟨15, hm _ (by decide), by decide, rfl, has_front (by decide +kernel) (by decide)⟩
  · exact ⟨17, hm _ (by decide), by decide, rfl, has_front (by decide +kernel) (by decide)⟩
  · exact ⟨19, hm _ (by decide), by decide, rfl, has_front (by decide +kernel) (by decide)⟩

example : m.invoke code pos (m.dynView 0x20080 (0xC0D00000 + 40)) .reject = .ok ((true, .reject), 0x20080) :=
  C109_methods m m_apart code pos 40 true m_methods _ (.inl rfl) _ _

/-- A record of 32 bytes; 3 bytes are written into it. -/
example : Has m 68 (List.replicate 32 0xFF) ∧ 5 + [1, 2, (3 : UInt8)].length ≤ (List.replicate 32 (0xFF : UInt8)).length :=
  ⟨has_front (by decide +kernel) (by decide), by decide⟩

/-- A global with its sentinel and a value of 4 bytes in RAM. -/
example : InRam m 0x20000 1 ∧ InRam m 0x20010 [1, 2, 3, (4 : UInt8)].length ∧ m.rest 0x20000 ≠ some 1 := by
  have hl := m_length
  have hr : ∀ x, 0x20000 ≤ x → x < 0x20100 → ¬ m.inLoad x ∧ ¬ m.inLink x ∧ (m.rest x).isSome := by
    intro x h1 h2
    have e1 : m.load = 0x10000 := rfl
    have e2 : m.link = 0xC0D00000 := rfl
    refine ⟨by omega, by omega, ?_⟩
    show (if 0x20000 ≤ x ∧ x < 0x20100 then some (0 : UInt8) else none).isSome
    rw [if_pos ⟨h1, h2⟩]
    rfl
  exact ⟨fun x h1 h2 => hr x (by omega) (by omega), fun x h1 h2 => hr x (by omega) (by simp at h2; omega), by decide⟩

/-- An installation that overlaps where the image was linked. -/
example : ¬ Apart { m with load := 0xC0D00010 } := by
  have hl : 100 ≤ m.image.length := by
    show 100 ≤ (front ++ texts ++ entries).length
    rw [List.length_append, List.length_append, front_length]
    omega
  have e1 : m.link = 0xC0D00000 := rfl
  unfold Apart
  simp only
  omega

/-- Nothing can be read where it was linked. -/
example : ∀ x, m.inLink x → m.rest x = none := by
  intro x h
  have e2 : m.link = 0xC0D00000 := rfl
  show (if 0x20000 ≤ x ∧ x < 0x20100 then some (0 : UInt8) else none) = none
  rw [if_neg (by omega)]

end Pic.Demo

end Tezos
