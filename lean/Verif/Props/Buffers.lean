import Verif.Buffers
import Verif.Calm
import Verif.Props.Address
import Verif.Props.Display
import Verif.Devel
import Verif.Scenario
/-
C99: texts of earlier screens do not show through, and the static buffers of the display never make the app abort.
-/
namespace Tezos
open Spec

/-- All bytes are below 0x80. -/
def Ascii7 (b : Bytes) : Prop := ∀ c ∈ b, c < 0x80

/-- An item whose title fits the smallest title buffer and is printable, and whose text has no NUL but possibly a last
one. -/
structure Field.Clean (f : Field) : Prop where
  title : ∀ c ∈ f.title, 32 ≤ c ∧ c < 0x80
  fits : f.title.length ≤ 17
  text : ∃ t, (0 : UInt8) ∉ t ∧ (f.text = t ∨ f.text = t ++ [0])

/-- Every item that a review can draw is clean. -/
def Viewer.Clean (v : Viewer) : Prop := ∀ n f, v.item n = .ok f → f.Clean

/-- Buffers of the right sizes, the title in ASCII. -/
structure BufS.Sound (b : BufS) : Prop where
  key : b.key.length = 18
  value : b.value.length = 18
  value2 : b.value2.length = 18
  ascii : Ascii7 b.key

structure BufX.Sound (b : BufX) : Prop where
  key : b.key.length = 64
  message : b.message.length = 4096
  ascii : Ascii7 b.key
  ascii' : Ascii7 b.message

/-- The outcome with buffers and the one with texts agree: the same ending and position, and the three lines read from
the buffers are those of the screen. -/
inductive UpdS.Reads : UpdS → Upd → Prop
  | shown {z : Zui} {b : BufS} (hb : b.Sound) : UpdS.Reads (.shown z b) (.shown { z with screen := b.screen })
  | failed {z : Zui} {b : BufS} (hb : b.Sound) : UpdS.Reads (.failed z b) (.failed z)
  | rejected {z : Zui} {b : BufS} (hb : b.Sound) : UpdS.Reads (.rejected z b) (.rejected z)
  | panic : UpdS.Reads .panic .panic
  | hang : UpdS.Reads .hang .hang

/-- The same for the larger display. If there is no data the texts are still those in the buffers. If
a review rejects itself or an item fails, the error screen follows. -/
inductive UpdXB.Reads : UpdXB → UpdX → Prop
  | shown {z : ZuiX} {b : BufX} (hb : b.Sound) : UpdXB.Reads (.shown z b) (.shown (b.on z))
  | noData {z : ZuiX} {b : BufX} (hb : b.Sound) : UpdXB.Reads (.noData z b) (.noData (b.on z))
  | rejected {z : ZuiX} {b old : BufX} (hb : b.Sound) : UpdXB.Reads (.rejected z b) (.rejected (old.on z))
  | failed {z : ZuiX} {b old : BufX} (hb : b.Sound) : UpdXB.Reads (.failed z b) (.failed (old.on z))
  | panic : UpdXB.Reads .panic .panic
  | hang : UpdXB.Reads .hang .hang

/-! ### Bytes -/

theorem cString_append {t r : Bytes} (h : (0 : UInt8) ∉ t) : cString (t ++ 0 :: r) = t := by
  unfold cString
  rw [List.takeWhile_append_of_pos]
  · simp
  · intro c hc
    simp only [bne_iff_ne, ne_eq]
    rintro rfl
    exact h hc

theorem takeWhile_clean {t : Bytes} (h : (0 : UInt8) ∉ t) : t.takeWhile (· != 0) = t := by
  have e := List.takeWhile_append_of_pos (p := (· != (0 : UInt8))) (l₁ := t) (l₂ := []) (by
    intro c hc
    simp only [bne_iff_ne, ne_eq]
    rintro rfl
    exact h hc)
  simpa using e

theorem take_cString (t : Bytes) : t.take (cString t).length = cString t := by
  have h := List.takeWhile_append_dropWhile (p := (· != (0 : UInt8))) (l := t)
  have e := List.take_left (l₁ := t.takeWhile (· != 0)) (l₂ := t.dropWhile (· != 0))
  rw [h] at e
  exact e

theorem cString_clean (t : Bytes) : (0 : UInt8) ∉ cString t := by
  intro h
  have := List.all_eq_true.mp List.all_takeWhile 0 h
  simp at this

theorem asciify_clean (t : Bytes) : (0 : UInt8) ∉ asciify t := by
  unfold asciify
  intro h
  obtain ⟨c, _, hc⟩ := List.mem_map.mp h
  split at hc
  · rename_i hh
    subst hc
    exact absurd hh.1 (by decide)
  · exact absurd hc (by decide)

theorem asciify_ascii (t : Bytes) : Ascii7 (asciify t) := by
  unfold asciify
  intro x h
  obtain ⟨c, _, hc⟩ := List.mem_map.mp h
  split at hc
  · rename_i hh
    subst hc
    have := hh.2
    rw [UInt8.le_iff_toNat_le] at this
    rw [UInt8.lt_iff_toNat_lt]
    have h1 : (0x7F : UInt8).toNat = 127 := rfl
    have h2 : (0x80 : UInt8).toNat = 128 := rfl
    omega
  · subst hc
    decide

theorem asciify_join {t r : Bytes} (h : (0 : UInt8) ∉ t) : asciify (t ++ 0 :: r) = asciify t := by
  have h1 := cString_append (r := r) h
  have h2 : t.takeWhile (· != 0) = t := takeWhile_clean h
  unfold cString at h1
  unfold asciify
  rw [h1, h2]

theorem asciify_same_length {t : Bytes} (h : (0 : UInt8) ∉ t) : (asciify t).length = t.length := by
  have h2 : t.takeWhile (· != 0) = t := takeWhile_clean h
  unfold asciify
  rw [h2, List.length_map]

theorem asciifyIn_append {t r : Bytes} (h : (0 : UInt8) ∉ t) : asciifyIn (t ++ 0 :: r) = asciify t ++ 0 :: r := by
  unfold asciifyIn
  rw [asciify_join h, cString_append h]
  simp

theorem writeFront_ok {b t : Bytes} (h : t.length ≤ b.length) : writeFront b t = .ok (t ++ b.drop t.length) := if_pos h

theorem Ascii7.utf8 {b : Bytes} (h : Ascii7 b) : isUtf8 b = true := by
  unfold isUtf8
  induction b with
  | nil => rfl
  | cons a t ih =>
    unfold utf8From
    rw [if_pos (h a List.mem_cons_self)]
    exact ih fun c hc => h c (List.mem_cons_of_mem _ hc)

theorem Ascii7.expect {b : Bytes} (h : Ascii7 b) : expectUtf8 b = .ok () := if_pos h.utf8

theorem Ascii7.append {a b : Bytes} (h : Ascii7 a) (k : Ascii7 b) : Ascii7 (a ++ b) := fun c hc =>
  (List.mem_append.mp hc).elim (h c) (k c)

theorem Ascii7.drop {b : Bytes} (h : Ascii7 b) (n : Nat) : Ascii7 (b.drop n) := fun c hc => h c (List.mem_of_mem_drop hc)

theorem Ascii7.zero {b : Bytes} (h : Ascii7 b) : Ascii7 (0 :: b) := fun c hc =>
  (List.mem_cons.mp hc).elim (fun e => e ▸ by decide) (h c)

theorem decimal_clean (n : Nat) : (0 : UInt8) ∉ decimal n ∧ Ascii7 (decimal n) := by
  have h := decimal_isDigit n
  refine ⟨fun h0 => isDigit_ne_zero (h 0 h0) rfl, fun c hc => ?_⟩
  have := (h c hc).2
  rw [UInt8.lt_iff_toNat_lt]
  have h2 : (0x80 : UInt8).toNat = 128 := rfl
  omega

/-! ### Titles with the page -/

/-- `keyWithPage` and `keyWithPageX`, for a title buffer of any size. -/
def pagedTitle (ks : Nat) (key : Bytes) (pageIdx pageCount : Nat) : Bytes :=
  if pageCount > 1 ∧ key.length < ks then
    let k := key ++ Tezos.ascii " [" ++ decimal (pageIdx + 1) ++ Tezos.ascii "/" ++ decimal pageCount ++ Tezos.ascii "]"
    if k.length + 1 < ks then k else key
  else key

theorem formatKey_reads {ks : Nat} {key : Bytes} (hl : key.length = ks) (ha : Ascii7 key) (p n : Nat) :
    ∃ key', formatKey ks key p n = .ok key' ∧ key'.length = ks ∧ Ascii7 key' ∧
      cString key' = pagedTitle ks (cString key) p n := by
  unfold formatKey pagedTitle
  split
  · rw [ha.expect]
    rw [take_cString]
    generalize hk : cString key ++ ascii " [" ++ decimal (p + 1) ++ ascii "/" ++ decimal n ++ ascii "]" = k
    have hc : (0 : UInt8) ∉ k := by
      rw [← hk]
      simp only [List.mem_append, not_or]
      exact ⟨⟨⟨⟨⟨cString_clean _, by decide +kernel⟩, (decimal_clean _).1⟩, by decide +kernel⟩, (decimal_clean _).1⟩,
        by decide +kernel⟩
    have hka : Ascii7 k := by
      rw [← hk]
      refine Ascii7.append (Ascii7.append (Ascii7.append (Ascii7.append (Ascii7.append ?_ ?_) ?_) ?_) ?_) ?_
      · intro c hc
        exact ha c ((List.takeWhile_sublist _).mem hc)
      · unfold Ascii7; decide +kernel
      · exact (decimal_clean _).2
      · unfold Ascii7; decide +kernel
      · exact (decimal_clean _).2
      · unfold Ascii7; decide +kernel
    dsimp only [bind, Except.bind]
    rw [List.length_append, List.length_singleton]
    split
    · rename_i hlt
      rw [writeFront_ok (by simp; omega)]
      refine ⟨_, rfl, by simp; omega, ?_, ?_⟩
      · exact (hka.append (Ascii7.zero (by intro c hc; simp at hc))).append (ha.drop _)
      · rw [List.append_assoc]
        exact cString_append hc
    · exact ⟨key, rfl, hl, ha, rfl⟩
  · exact ⟨key, rfl, hl, ha, rfl⟩

/-! ### Texts of items -/

/-- A text without NUL, but possibly a last one. -/
def CleanText (x : Bytes) : Prop := ∃ t, (0 : UInt8) ∉ t ∧ (x = t ∨ x = t ++ [0])

theorem CleanText.chunk {x : Bytes} (h : CleanText x) (a m : Nat) : CleanText ((x.drop a).take m) := by
  obtain ⟨t, h0, rfl | rfl⟩ := h
  · exact ⟨_, fun h => h0 (List.mem_of_mem_drop (List.mem_of_mem_take h)), .inl rfl⟩
  · refine ⟨(t.drop a).take m, fun h => h0 (List.mem_of_mem_drop (List.mem_of_mem_take h)), ?_⟩
    rw [List.drop_append, List.take_append]
    have : ((([0] : Bytes).drop (a - t.length)).take (m - (t.drop a).length)) = [] ∨
        ((([0] : Bytes).drop (a - t.length)).take (m - (t.drop a).length)) = [0] := by
      generalize m - (t.drop a).length = y
      rcases a - t.length with _ | x
      · rcases y with _ | y
        · exact .inl rfl
        · exact .inr (by simp)
      · exact .inl (by simp)
    rcases this with h | h
    · left; rw [h, List.append_nil]
    · right; rw [h]

theorem handleUi_clean {x t : Bytes} {m : Nat} {p n : UInt8} (hx : CleanText x) (h : handleUi x m p = .ok (t, n)) :
    CleanText t ∧ t.length + 1 ≤ m := by
  unfold handleUi at h
  split at h
  · cases h
  dsimp only at h
  split at h
  · split at h
    · cases h
    · rename_i hm c hc
      simp only [Except.ok.injEq, Prod.mk.injEq] at h
      obtain ⟨rfl, -⟩ := h
      unfold nthChunk at hc
      split at hc
      · simp only [Option.some.injEq] at hc
        subst hc
        refine ⟨hx.chunk _ _, ?_⟩
        have := List.length_take_le (m - 1) (x.drop (p.toNat * (m - 1)))
        omega
      · cases hc
  · simp only [Except.ok.injEq, Prod.mk.injEq] at h
    obtain ⟨rfl, -⟩ := h
    exact ⟨hx, by omega⟩

/-- Writing a clean text to a buffer and replacing what is not printable. -/
theorem write_text {b t : Bytes} (ht : CleanText t) (hl : t.length + 1 ≤ b.length) :
    ∃ b', writeFront b (t ++ [0]) = .ok b' ∧ (asciifyIn b').length = b.length ∧
      (Ascii7 b → Ascii7 (asciifyIn b')) ∧ cString (asciifyIn b') = asciify t ∧ (asciify t).length ≤ t.length := by
  refine ⟨_, writeFront_ok (by simpa using hl), ?_⟩
  obtain ⟨s, h0, rfl | rfl⟩ := ht
  · rw [List.append_assoc, List.singleton_append, asciifyIn_append h0]
    refine ⟨?_, fun ha => (asciify_ascii _).append (ha.drop _).zero, cString_append (asciify_clean _),
      (asciify_same_length h0).le⟩
    simp only [List.length_append, List.length_cons, List.length_drop, asciify_same_length h0, List.length_nil]
    omega
  · have e : s ++ [0] ++ [0] ++ b.drop (s ++ [0] ++ [0]).length = s ++ 0 :: (0 :: b.drop (s ++ [0] ++ [0]).length) := by
      simp
    have e2 : asciify (s ++ [0]) = asciify s := asciify_join h0
    rw [e, asciifyIn_append h0, e2]
    refine ⟨?_, fun ha => (asciify_ascii _).append (ha.drop _).zero.zero, cString_append (asciify_clean _), ?_⟩
    · simp only [List.length_append, List.length_cons, List.length_drop, asciify_same_length h0, List.length_nil] at hl ⊢
      omega
    · rw [asciify_same_length h0]
      simp

theorem Field.Clean.titleClean {f : Field} (h : f.Clean) : CleanText f.title :=
  ⟨f.title, fun h0 => absurd (h.title 0 h0).1 (by decide), .inl rfl⟩

/-! ### The two-line display -/

theorem BufS.split_reads {b : BufS} (hb : b.Sound) {msg : Bytes} (hl : (cString msg).length ≤ 34) :
    ∃ b', b.split msg = .ok b' ∧ b'.Sound ∧ b'.key = b.key ∧ cString b'.value = (splitLines (cString msg)).1 ∧
      cString b'.value2 = (splitLines (cString msg)).2 := by
  unfold BufS.split
  dsimp only
  rw [take_cString]
  have hs : (if (cString msg).length ≥ lineSize then ((cString msg).take (lineSize - 1), (cString msg).drop (lineSize - 1))
      else (cString msg, [])) = splitLines (cString msg) := rfl
  rw [hs]
  have h0 := cString_clean msg
  have h1 : (0 : UInt8) ∉ (splitLines (cString msg)).1 ∧ (splitLines (cString msg)).1.length ≤ 17 := by
    unfold splitLines lineSize
    split
    · exact ⟨fun h => h0 (List.mem_of_mem_take h), by simp⟩
    · exact ⟨h0, by dsimp only; omega⟩
  have h2 : (0 : UInt8) ∉ (splitLines (cString msg)).2 ∧ (splitLines (cString msg)).2.length ≤ 17 := by
    unfold splitLines lineSize
    split
    · exact ⟨fun h => h0 (List.mem_of_mem_drop h), by simp; omega⟩
    · exact ⟨by simp, by simp⟩
  obtain ⟨hk, hv, hv2, ha⟩ := hb
  rw [writeFront_ok (by simp; omega), writeFront_ok (by simp; omega)]
  refine ⟨_, rfl, ⟨hk, by simp; omega, by simp; omega, ha⟩, rfl, ?_, ?_⟩
  · dsimp only
    rw [List.append_assoc]
    exact cString_append h1.1
  · dsimp only
    rw [List.append_assoc]
    exact cString_append h2.1

/-- Drawing an item in buffers, whatever they held. -/
theorem BufS.renderItem_reads {b : BufS} (hb : b.Sound) {v : Viewer} (hv : v.Clean) (i p : Nat) :
    match Tezos.renderItem v i p with
    | .error e => b.renderItem v i p = .error e
    | .ok (k, t, n) => ∃ b', b.renderItem v i p = .ok (b', n) ∧ b'.Sound ∧ cString b'.key = k ∧
        cString b'.value = (splitLines t).1 ∧ cString b'.value2 = (splitLines t).2 := by
  unfold Tezos.renderItem BufS.renderItem
  cases hi : v.item (UInt8.ofNat i) with
  | error e => rfl
  | ok f =>
    have hf := hv _ _ hi
    obtain ⟨k', hk1, hk2, hk3, hk4, -⟩ := write_text (b := b.key) hf.titleClean (by rw [hb.key]; have := hf.fits; omega)
    have hm : messageS.length = messageSize := by simp [messageS]
    dsimp only [bind, Except.bind]
    rw [hk1, hm]
    dsimp only
    cases hu : handleUi f.text messageSize (UInt8.ofNat p) with
    | error e => rfl
    | ok r =>
      obtain ⟨t, n⟩ := r
      obtain ⟨hc, hlen⟩ := handleUi_clean hf.text hu
      obtain ⟨m', hm1, hm2, hm3, hm4, hm5⟩ := write_text (b := messageS) hc (by rw [hm]; exact hlen)
      dsimp only
      rw [hm1]
      dsimp only
      have hb' : BufS.Sound { b with key := asciifyIn k' } := ⟨by rw [hk2, hb.key], hb.value, hb.value2, hk3 hb.ascii⟩
      have hms : messageSize = 35 := rfl
      obtain ⟨b2, e1, e2, e3, e4, e5⟩ := BufS.split_reads hb' (msg := asciifyIn m') (by rw [hm4]; omega)
      rw [e1]
      refine ⟨b2, rfl, e2, by rw [e3]; exact hk4, ?_, ?_⟩
      · rw [e4, hm4]
      · rw [e5, hm4]

theorem updateLoopS_reads {v : Viewer} (hv : v.Clean) : ∀ (fuel : Nat) (z : Zui) (b : BufS), b.Sound →
    (updateLoopS v fuel z b).Reads (updateLoop v fuel z)
  | 0, _, _, _ => .hang
  | fuel + 1, z, b, hb => by
    unfold updateLoopS updateLoop
    have h1 := BufS.renderItem_reads hb hv z.itemIdx 0
    cases hr : renderItem v z.itemIdx 0 with
    | error e =>
      rw [hr] at h1
      rw [h1]
      cases e
      · exact .failed hb
      · exact .failed hb
      · exact .rejected hb
      · exact .panic
    | ok r =>
      obtain ⟨k, t, n⟩ := r
      rw [hr] at h1
      obtain ⟨b1, e1, hb1, -⟩ := h1
      rw [e1]
      dsimp only
      generalize (if n ≠ 0 ∧ z.pageIdx > n then
        ({ itemIdx := z.itemIdx, itemCount := z.itemCount, pageIdx := n - 1, pageCount := n, expert := z.expert,
           screen := z.screen, large := z.large } : Zui) else
        { itemIdx := z.itemIdx, itemCount := z.itemCount, pageIdx := z.pageIdx, pageCount := n, expert := z.expert,
           screen := z.screen, large := z.large }) = y
      have h2 := BufS.renderItem_reads hb1 hv y.itemIdx y.pageIdx
      cases hr2 : renderItem v y.itemIdx y.pageIdx with
      | error e =>
        rw [hr2] at h2
        rw [h2]
        cases e
        · exact .failed hb1
        · exact .failed hb1
        · exact .rejected hb1
        · exact .panic
      | ok r =>
        obtain ⟨k2, t2, n2⟩ := r
        rw [hr2] at h2
        obtain ⟨b2, e2, hb2, hk, hl1, hl2⟩ := h2
        rw [e2]
        dsimp only
        obtain ⟨key', f1, f2, f3, f4⟩ := formatKey_reads hb2.key hb2.ascii y.pageIdx n2
        have hks : keySize = 18 := rfl
        rw [hks, f1]
        dsimp only
        have hb3 : BufS.Sound { b2 with key := key' } := ⟨f2, hb2.value, hb2.value2, f3⟩
        split
        · exact updateLoopS_reads hv fuel _ _ hb3
        · have he : pageScreen k2 t2 y.pageIdx n2 = BufS.screen { b2 with key := key' } := by
            unfold pageScreen BufS.screen
            dsimp only
            rw [f4, hk, hl1, hl2]
            rfl
          rw [he]
          exact .shown hb3

theorem BufS.label_reads {b : BufS} (hb : b.Sound) {s : String} (h0 : (0 : UInt8) ∉ ascii s) (hl : (ascii s).length ≤ 17) :
    ∃ b', b.label s = .ok b' ∧ b'.Sound ∧ b'.screen = .review [] (ascii s) [] := by
  have hm : messageS.length = 35 := by simp [messageS, messageSize]
  unfold BufS.label
  rw [writeFront_ok (by rw [hm]; simp; omega)]
  have hc : cString (ascii s ++ [0] ++ messageS.drop (ascii s ++ [0]).length) = ascii s := by
    rw [List.append_assoc]
    exact cString_append h0
  have hb' : BufS.Sound { b with key := b.key.set 0 0 } := by
    refine ⟨by simpa using hb.key, hb.value, hb.value2, fun c hc => ?_⟩
    rcases List.mem_or_eq_of_mem_set hc with h | h
    · exact hb.ascii c h
    · subst h; decide
  obtain ⟨b2, e1, e2, e3, e4, e5⟩ := BufS.split_reads hb'
    (msg := ascii s ++ [0] ++ messageS.drop (ascii s ++ [0]).length) (by rw [hc]; omega)
  dsimp only [bind, Except.bind]
  rw [e1]
  refine ⟨b2, rfl, e2, ?_⟩
  unfold BufS.screen
  rw [e3, e4, e5, hc]
  have hk : cString (b.key.set 0 0) = [] := by
    have := hb.key
    cases hkk : b.key with
    | nil => rfl
    | cons a t => rfl
  rw [hk]
  unfold splitLines
  rw [if_neg (by simp [lineSize]; omega)]

theorem reviewUpdateS_reads {v : Option Viewer} (hv : ∀ w, v = some w → w.Clean) (z : Zui) {b : BufS} (hb : b.Sound) :
    (reviewUpdateS v z b).Reads (reviewUpdate v z) := by
  unfold reviewUpdateS reviewUpdate
  cases v with
  | none => exact .failed hb
  | some v =>
    dsimp only
    cases v.numItems with
    | error e =>
      cases e
      · exact .failed hb
      · exact .failed hb
      · exact .failed hb
      · exact .panic
    | ok n =>
      dsimp only
      split
      · obtain ⟨b', e1, e2, e3⟩ := BufS.label_reads hb (s := "APPROVE") (by decide +kernel) (by decide +kernel)
        rw [e1]
        have : approveScreen = b'.screen := e3.symm
        rw [this]
        exact .shown e2
      split
      · obtain ⟨b', e1, e2, e3⟩ := BufS.label_reads hb (s := "REJECT") (by decide +kernel) (by decide +kernel)
        rw [e1]
        have : rejectScreen = b'.screen := e3.symm
        rw [this]
        exact .shown e2
      · exact updateLoopS_reads (hv _ rfl) _ _ _ hb

/-! ### The larger display -/

theorem BufX.renderItem_reads {b : BufX} (hb : b.Sound) {v : Viewer} (hv : v.Clean) (i p : Nat) :
    match renderItemX v i p with
    | .error e => b.renderItem v i p = .error e
    | .ok (k, t, n) => ∃ b', b.renderItem v i p = .ok (b', n) ∧ b'.Sound ∧ cString b'.key = k ∧ cString b'.message = t := by
  unfold renderItemX BufX.renderItem
  rw [hb.ascii'.expect]
  cases hi : v.item (UInt8.ofNat i) with
  | error e => rfl
  | ok f =>
    have hf := hv _ _ hi
    obtain ⟨k', hk1, hk2, hk3, hk4, -⟩ := write_text (b := b.key) hf.titleClean (by rw [hb.key]; have := hf.fits; omega)
    have hm : b.message.length = messageSizeX := hb.message
    dsimp only [bind, Except.bind]
    rw [hk1, hm]
    dsimp only
    cases hu : handleUi f.text messageSizeX (UInt8.ofNat p) with
    | error e => rfl
    | ok r =>
      obtain ⟨t, n⟩ := r
      obtain ⟨hc, hlen⟩ := handleUi_clean hf.text hu
      obtain ⟨m', hm1, hm2, hm3, hm4, hm5⟩ := write_text (b := b.message) hc (by rw [hm]; exact hlen)
      dsimp only
      rw [hm1]
      exact ⟨_, rfl, ⟨by rw [hk2, hb.key], by rw [hm2, hb.message], hk3 hb.ascii, hm3 hb.ascii'⟩, hk4, hm4⟩

theorem renderItemX_again {v : Viewer} {i p q : Nat} {r : Bytes × Bytes × Nat} (h : renderItemX v i p = .ok r) :
    renderItemX v i q ≠ .error .noData ∧ renderItemX v i q ≠ .error .reject := by
  unfold renderItemX at h ⊢
  cases hi : v.item (UInt8.ofNat i) with
  | error e => rw [hi] at h; cases h
  | ok f =>
    dsimp only [bind, Except.bind]
    have hu : ∀ e, handleUi f.text messageSizeX (UInt8.ofNat q) = .error e → e = .unknown ∨ e = .panic := by
      intro e h
      unfold handleUi at h
      split at h
      · cases h; exact .inr rfl
      dsimp only at h
      split at h
      · split at h
        · cases h; exact .inl rfl
        · cases h
      · cases h
    cases hh : handleUi f.text messageSizeX (UInt8.ofNat q) with
    | error e =>
      rcases hu e hh with rfl | rfl
      · exact ⟨by simp, by simp⟩
      · exact ⟨by simp, by simp⟩
    | ok r =>
      obtain ⟨t, n⟩ := r
      exact ⟨nofun, nofun⟩

theorem updateLoopXB_reads {v : Viewer} (hv : v.Clean) : ∀ (fuel : Nat) (z : ZuiX) (b : BufX), b.Sound →
    (updateLoopXB v fuel z b).Reads (updateLoopX v fuel (b.on z))
  | 0, _, _, _ => .hang
  | fuel + 1, z, b, hb => by
    unfold updateLoopXB updateLoopX
    have hz : (b.on z).itemIdx = z.itemIdx := rfl
    have h1 := BufX.renderItem_reads hb hv z.itemIdx 0
    rw [hz]
    cases hr : renderItemX v z.itemIdx 0 with
    | error e =>
      rw [hr] at h1
      rw [h1]
      cases e
      · exact .failed hb
      · exact .noData hb
      · exact .rejected hb
      · exact .panic
    | ok r =>
      obtain ⟨k, t, n⟩ := r
      rw [hr] at h1
      obtain ⟨b1, e1, hb1, -⟩ := h1
      rw [e1]
      dsimp only [BufX.on]
      have hy : ∃ y : ZuiX, y.itemIdx = z.itemIdx ∧ (if n ≠ 0 ∧ z.pageIdx > n then
          ({ itemIdx := z.itemIdx, itemCount := z.itemCount, pageIdx := n - 1, pageCount := n, inside := z.inside,
             key := z.key, message := z.message, step := z.step } : ZuiX) else
          { itemIdx := z.itemIdx, itemCount := z.itemCount, pageIdx := z.pageIdx, pageCount := n, inside := z.inside,
             key := z.key, message := z.message, step := z.step }) = y ∧
          (if n ≠ 0 ∧ z.pageIdx > n then
          ({ itemIdx := z.itemIdx, itemCount := z.itemCount, pageIdx := n - 1, pageCount := n, inside := z.inside,
             key := cString b.key, message := cString b.message, step := z.step } : ZuiX) else
          { itemIdx := z.itemIdx, itemCount := z.itemCount, pageIdx := z.pageIdx, pageCount := n, inside := z.inside,
             key := cString b.key, message := cString b.message, step := z.step }) = b.on y := by
        split
        · exact ⟨{ z with pageIdx := n - 1, pageCount := n }, rfl, rfl, rfl⟩
        · exact ⟨{ z with pageCount := n }, rfl, rfl, rfl⟩
      obtain ⟨y, hyi, hy1, hy2⟩ := hy
      rw [hy1, hy2]
      have hoi : (b.on y).itemIdx = y.itemIdx := rfl
      have hop : (b.on y).pageIdx = y.pageIdx := rfl
      rw [hoi, hop]
      have h2 := BufX.renderItem_reads hb1 hv y.itemIdx y.pageIdx
      cases hr2 : renderItemX v y.itemIdx y.pageIdx with
      | error e =>
        rw [hr2] at h2
        rw [h2]
        have := renderItemX_again (q := y.pageIdx) hr
        rw [← hyi, hr2] at this
        cases e
        · exact .failed hb1
        · exact absurd rfl this.1
        · exact absurd rfl this.2
        · exact .panic
      | ok r =>
        obtain ⟨k2, t2, n2⟩ := r
        rw [hr2] at h2
        obtain ⟨b2, e2, hb2, hk, hm⟩ := h2
        rw [e2]
        dsimp only
        obtain ⟨key', f1, f2, f3, f4⟩ := formatKey_reads hb2.key hb2.ascii y.pageIdx n2
        have hks : keySizeX = 64 := rfl
        rw [hks, f1]
        dsimp only
        have hb3 : BufX.Sound { b2 with key := key' } := ⟨f2, hb2.message, f3, hb2.ascii'⟩
        split
        · rename_i h0
          have ih := updateLoopXB_reads hv fuel (ZuiX.pagingIncrease { y with pageCount := n2 }) { b2 with key := key' } hb3
          have e : BufX.on { b2 with key := key' } (ZuiX.pagingIncrease { y with pageCount := n2 }) =
              { ZuiX.pagingIncrease { b.on y with pageCount := n2 } with key := k2, message := t2 } := by
            have hp : pagedTitle 64 k2 y.pageIdx n2 = k2 := by
              unfold pagedTitle
              rw [if_neg (by omega)]
            unfold BufX.on ZuiX.pagingIncrease
            dsimp only
            rw [f4, hk, hm, hp]
            split
            · rfl
            split
            · rfl
            · rfl
          rw [e] at ih
          exact ih
        · have e : ({ b.on y with pageCount := n2, key := keyWithPageX k2 y.pageIdx n2, message := t2 } : ZuiX) =
              BufX.on { b2 with key := key' } { y with pageCount := n2 } := by
            unfold BufX.on
            dsimp only
            rw [f4, hk, hm]
            rfl
          have hs := UpdXB.Reads.shown (z := { y with pageCount := n2 }) hb3
          rw [← e] at hs
          exact hs

theorem reviewUpdateXB_reads {v : Option Viewer} (hv : ∀ w, v = some w → w.Clean) (z : ZuiX) {b : BufX} (hb : b.Sound) :
    (reviewUpdateXB v z b).Reads (reviewUpdateX v (b.on z)) := by
  unfold reviewUpdateXB reviewUpdateX
  cases v with
  | none => exact .noData hb
  | some v =>
    dsimp only
    cases v.numItems with
    | error e =>
      cases e
      · exact .failed hb
      · exact .noData hb
      · exact .rejected hb
      · exact .panic
    | ok n => exact updateLoopXB_reads (hv _ rfl) _ _ _ hb

/-! ### The items of the app -/

/-- What a computation gives. -/
def Gives (P : Bytes → Prop) (x : Except VErr Bytes) : Prop := ∀ t, x = .ok t → P t

theorem base58Into_clean {n : Nat} {b : Bytes} : Gives CleanText (base58Into n b) := by
  intro t h
  unfold base58Into at h
  split at h
  · cases h
    exact ⟨_, base58_no_nul _, .inl rfl⟩
  · cases h

theorem Gives.bind {α : Type} {P : Bytes → Prop} {x : Except VErr α} {f : α → Except VErr Bytes}
    (h : ∀ a, Gives P (f a)) : Gives P (x >>= f) := by
  intro t ht
  cases x with
  | error e => cases ht
  | ok a => exact h a t ht

theorem hexEncode_clean (b : Bytes) : CleanText (hexEncode b) := by
  refine ⟨_, ?_, .inl rfl⟩
  unfold hexEncode
  intro h
  obtain ⟨x, -, hx⟩ := List.mem_flatMap.mp h
  simp only [List.mem_cons, List.not_mem_nil, or_false] at hx
  have := x.toNat_lt
  rcases hx with hx | hx
  · exact (hexDigit_value _ (by omega)).2 hx.symm
  · exact (hexDigit_value _ (by omega)).2 hx.symm

theorem decimal_cleanText (n : Nat) : CleanText (decimal n) := ⟨_, (decimal_clean n).1, .inl rfl⟩

theorem decimalI32_clean (x : UInt32) : CleanText (decimalI32 x) := by
  unfold decimalI32
  split
  · exact decimal_cleanText _
  · refine ⟨_, fun h => ?_, .inl rfl⟩
    rcases List.mem_cons.mp h with h | h
    · cases h
    · exact (decimal_clean _).1 h

theorem cstr_clean {s : String} (h : (0 : UInt8) ∉ ascii s) : CleanText (cstr s) := ⟨_, h, .inr rfl⟩

theorem amountText_clean (n : Nat) : Gives CleanText (amountText n) := by
  have hs : ∀ s : Bytes, CleanText (s.take (strlen s)) := by
    intro s
    have : s.take (strlen s) = cString s := take_cString s
    rw [this]
    exact ⟨_, cString_clean s, .inl rfl⟩
  have hf : ∀ (s : Bytes) (d : Nat) (t : Bytes), intstrToFpstr s d = .ok t → CleanText t := by
    intro s d t h
    unfold intstrToFpstr at h
    dsimp only [bind, Except.bind, pure, Except.pure] at h
    repeat' split at h
    all_goals first | cases h; done | (cases h; exact hs _)
  intro t h
  unfold amountText at h
  split at h
  · rename_i t' ht
    cases h
    exact hf _ _ _ ht
  · cases h
  · cases h

theorem numText_clean (z : Zarith) : Gives CleanText (numText z) := by
  unfold numText
  exact Gives.bind fun v t h => by cases h; exact decimal_cleanText _

theorem fpText_clean (z : Zarith) : Gives CleanText (fpText z) := by
  unfold fpText
  exact Gives.bind fun v => amountText_clean v

theorem pkhText_clean (cr : Crypto) (p : Pkh) : Gives CleanText (pkhText cr p) := by
  unfold pkhText
  exact Gives.bind fun _ => base58Into_clean

theorem contractText_clean (cr : Crypto) (c : ContractID) : Gives CleanText (c.text cr) := by
  unfold ContractID.text
  exact Gives.bind fun _ => base58Into_clean

theorem michelsonText_clean (cr : Crypto) (m : Bytes) : Gives CleanText (michelsonText cr m) := by
  unfold michelsonText
  exact Gives.bind fun v t h => by cases h; exact hexEncode_clean _

theorem keyText_clean (cr : Crypto) (c : Curve) (k : Bytes) : Gives CleanText (keyText cr c k) := by
  unfold keyText
  exact Gives.bind fun _ => base58Into_clean

theorem branchText_clean (cr : Crypto) (b : Bytes) : Gives CleanText (branchText cr b) := by
  unfold branchText
  exact Gives.bind fun _ => base58Into_clean

theorem proposalText_clean (cr : Crypto) (b : Bytes) : Gives CleanText (proposalText cr b) := by
  unfold proposalText
  exact Gives.bind fun _ => base58Into_clean

theorem unknownText_clean (cr : Crypto) (b : Bytes) : Gives CleanText (unknownText cr b) := by
  unfold unknownText
  exact Gives.bind fun _ => Gives.bind fun _ => base58Into_clean

theorem alias_clean (cr : Crypto) (c : ChainID) : Gives CleanText (c.alias cr) := by
  cases c
  · intro t h; cases h; exact cstr_clean (by decide +kernel)
  · intro t h; cases h; exact cstr_clean (by decide +kernel)
  · exact Gives.bind fun _ => base58Into_clean

/-- A computed item is clean. -/
def ItemClean (x : Except VErr Field) : Prop := ∀ f, x = .ok f → f.Clean

/-- A title that is printable and fits. -/
def titleOk (s : String) : Bool := (ascii s).all (fun c => decide (32 ≤ c ∧ c < 0x80)) && decide ((ascii s).length ≤ 17)

theorem Field.clean_of {s : String} {t : Bytes} (hs : titleOk s = true) (ht : CleanText t) : Field.Clean ⟨ascii s, t⟩ := by
  simp only [titleOk, Bool.and_eq_true, List.all_eq_true, decide_eq_true_eq] at hs
  exact ⟨hs.1, hs.2, ht⟩

theorem ItemClean.const {s u : String} (hs : titleOk s = true) (hu : (0 : UInt8) ∉ ascii u) :
    ItemClean (.ok ⟨ascii s, cstr u⟩) := fun _ h => by cases h; exact Field.clean_of hs (cstr_clean hu)

theorem ItemClean.pure {s : String} {t : Bytes} (hs : titleOk s = true) (ht : CleanText t) :
    ItemClean (.ok ⟨ascii s, t⟩) := fun _ h => by cases h; exact Field.clean_of hs ht

theorem ItemClean.text {s : String} {x : Except VErr Bytes} (hs : titleOk s = true) (hx : Gives CleanText x) :
    ItemClean (do return ⟨ascii s, ← x⟩) := by
  intro f h
  cases x with
  | error e => cases h
  | ok t => cases h; exact Field.clean_of hs (hx t rfl)

theorem ItemClean.error {e : VErr} : ItemClean (.error e) := nofun

theorem endorsementItem_clean (l : UInt32) (n : Nat) : ItemClean (endorsementItem l n) := by
  unfold endorsementItem
  split
  · exact .const (by decide +kernel) (by decide +kernel)
  · exact .pure (by decide +kernel) (decimalI32_clean _)
  · exact .error

theorem bakerName_clean {pfx hash name : Bytes} (h : bakerLookup pfx hash = some name) : CleanText name := by
  obtain ⟨b, hb, -, -, h3⟩ := (C56_lookup pfx hash).1 _ h
  exact ⟨name, fun h0 => names_no_nul b hb 0 (h3 ▸ h0) rfl, .inl rfl⟩

theorem Op.item_clean (cr : Crypto) (op : Op) (n : Nat) (hn : n < 256) : ItemClean (op.item cr n) := by
  cases op with
  | transfer t =>
    simp only [Op.item, Transfer.item]
    split
    · split
      · exact .const (by decide +kernel) (by decide +kernel)
      · exact .const (by decide +kernel) (by decide +kernel)
    · exact .text (by decide +kernel) (pkhText_clean _ _)
    · cases t.destination
      · exact .text (by decide +kernel) (contractText_clean _ _)
      · exact .text (by decide +kernel) (contractText_clean _ _)
    · exact .text (by decide +kernel) (fpText_clean _)
    · exact .text (by decide +kernel) (fpText_clean _)
    · split
      · exact .text (by decide +kernel) (michelsonText_clean _ _)
      · exact .const (by decide +kernel) (by decide +kernel)
    · exact .text (by decide +kernel) (numText_clean _)
    · exact .text (by decide +kernel) (numText_clean _)
    · exact .text (by decide +kernel) (numText_clean _)
    · exact .error
  | delegation t =>
    simp only [Op.item, Delegation.item]
    split
    · split
      · exact .const (by decide +kernel) (by decide +kernel)
      · exact .const (by decide +kernel) (by decide +kernel)
    · exact .text (by decide +kernel) (pkhText_clean _ _)
    · split
      · split
        · rename_i h
          exact .pure (by decide +kernel) (bakerName_clean h)
        · exact .text (by decide +kernel) (pkhText_clean _ _)
      · exact .const (by decide +kernel) (by decide +kernel)
    · exact .text (by decide +kernel) (fpText_clean _)
    · exact .text (by decide +kernel) (numText_clean _)
    · exact .text (by decide +kernel) (numText_clean _)
    · exact .text (by decide +kernel) (numText_clean _)
    · exact .error
  | endorsement l => exact endorsementItem_clean l n
  | endorsementWithSlot e =>
    simp only [Op.item, EndorsementWithSlot.item]
    split
    · exact .const (by decide +kernel) (by decide +kernel)
    · exact .text (by decide +kernel) (branchText_clean _ _)
    · exact .pure (by decide +kernel) (decimal_cleanText _)
    · exact endorsementItem_clean _ _
  | ballot b =>
    simp only [Op.item, Ballot.item]
    split
    · exact .const (by decide +kernel) (by decide +kernel)
    · exact .text (by decide +kernel) (pkhText_clean _ _)
    · exact .pure (by decide +kernel) (decimalI32_clean _)
    · exact .text (by decide +kernel) (proposalText_clean _ _)
    · cases b.vote <;> exact .const (by decide +kernel) (by decide +kernel)
    · exact .error
  | reveal r =>
    simp only [Op.item, Reveal.item]
    split
    · exact .const (by decide +kernel) (by decide +kernel)
    · exact .text (by decide +kernel) (pkhText_clean _ _)
    · exact .text (by decide +kernel) (keyText_clean _ _ _)
    · exact .text (by decide +kernel) (fpText_clean _)
    · exact .text (by decide +kernel) (numText_clean _)
    · exact .text (by decide +kernel) (numText_clean _)
    · exact .text (by decide +kernel) (numText_clean _)
    · exact .error
  | proposals p =>
    simp only [Op.item, Proposals.item]
    split
    · exact .const (by decide +kernel) (by decide +kernel)
    · exact .text (by decide +kernel) (pkhText_clean _ _)
    · exact .pure (by decide +kernel) (decimalI32_clean _)
    · rename_i k
      split
      · split
        · exact .error
        · rename_i prop _
          intro f h
          cases hp : proposalText cr prop with
          | error e => rw [hp] at h; cases h
          | ok t =>
            rw [hp] at h
            cases h
            have ht : ∀ k < 256, (ascii "Proposal #" ++ decimal (k + 1)).all (fun c => decide (32 ≤ c ∧ c < 0x80)) = true ∧
                (ascii "Proposal #" ++ decimal (k + 1)).length ≤ 17 := by decide +kernel
            obtain ⟨h1, h2⟩ := ht k (by omega)
            simp only [List.all_eq_true, decide_eq_true_eq] at h1
            exact ⟨h1, h2, proposalText_clean _ _ _ hp⟩
      · exact .error
  | origination o =>
    simp only [Op.item, Origination.item]
    split
    · exact .const (by decide +kernel) (by decide +kernel)
    · exact .text (by decide +kernel) (pkhText_clean _ _)
    · exact .text (by decide +kernel) (fpText_clean _)
    · split
      · exact .text (by decide +kernel) (pkhText_clean _ _)
      · exact .const (by decide +kernel) (by decide +kernel)
    · exact .text (by decide +kernel) (fpText_clean _)
    · exact .text (by decide +kernel) (michelsonText_clean _ _)
    · exact .text (by decide +kernel) (michelsonText_clean _ _)
    · exact .text (by decide +kernel) (numText_clean _)
    · exact .text (by decide +kernel) (numText_clean _)
    · exact .text (by decide +kernel) (numText_clean _)
    · exact .error
  | activateAccount a =>
    simp only [Op.item, ActivateAccount.item]
    split
    · exact .const (by decide +kernel) (by decide +kernel)
    · exact .text (by decide +kernel) (pkhText_clean _ _)
    · exact .pure (by decide +kernel) (hexEncode_clean _)
    · exact .error
  | failingNoop d =>
    simp only [Op.item, failingNoopItem]
    split
    · exact .const (by decide +kernel) (by decide +kernel)
    · exact .text (by decide +kernel) (michelsonText_clean _ _)
    · exact .error
  | unknown d =>
    simp only [Op.item, unknownItem]
    split
    · exact .const (by decide +kernel) (by decide +kernel)
    · exact .text (by decide +kernel) (unknownText_clean _ _)
    · exact .error
  | anonymous => exact .error

theorem signOpItem_clean (cr : Crypto) (branch ops : Bytes) (n : UInt8) : ItemClean (signOpItem cr branch ops n) := by
  unfold signOpItem
  split
  · exact .text (by decide +kernel) (branchText_clean _ _)
  · intro f h
    cases ho : findOp ops (n - 1) with
    | error e => rw [ho] at h; cases h
    | ok o =>
      rw [ho] at h
      cases o with
      | none => cases h
      | some o => exact Op.item_clean cr o.1 _ o.2.toNat_lt f h

/-- Every review of the app has clean items only: whatever the operation, the key, the chain, and whatever is in the
memory it is read from. -/
theorem C99_clean (cr : Crypto) (mem : SwapBuf) (v : View) : (v.viewer cr mem).Clean := by
  intro n
  cases v with
  | sign hh d r m =>
    cases r with
    | none =>
      simp only [View.viewer, signMichelsonItem]
      split
      · exact ItemClean.pure (by decide +kernel) (hexEncode_clean _)
      · exact ItemClean.error
    | some r => exact signOpItem_clean _ _ _ _
  | bakingSign hh d r op m =>
    simp only [View.viewer]
    split
    · exact ItemClean.text (by decide +kernel) (branchText_clean _ _)
    · exact Op.item_clean cr _ _ (n - 1).toNat_lt
  | addr a _ _ =>
    simp only [View.viewer]
    split
    · exact ItemClean.text (by decide +kernel) base58Into_clean
    · exact ItemClean.error
  | authorize _ a | deauthorize a | query _ a _ =>
    simp only [View.viewer]
    split
    · exact ItemClean.const (by decide +kernel) (by decide +kernel)
    split
    · exact ItemClean.text (by decide +kernel) base58Into_clean
    · exact ItemClean.error
  | setup _ a main test chain =>
    simp only [View.viewer]
    split
    · exact ItemClean.const (by decide +kernel) (by decide +kernel)
    split
    · exact ItemClean.text (by decide +kernel) base58Into_clean
    split
    · exact ItemClean.text (by decide +kernel) (alias_clean _ _)
    split
    · exact ItemClean.pure (by decide +kernel) (decimal_cleanText _)
    split
    · exact ItemClean.pure (by decide +kernel) (decimal_cleanText _)
    · exact ItemClean.error

/-! ### Sequences of screens -/

/-- What the app asks of the display: to draw a position of a review, the error screen, or the menu. -/
inductive UiCall where
  | review (v : Option Viewer) (z : Zui)
  | reviewX (v : Option Viewer) (z : ZuiX)
  | error
  | idle (expert : Bool)

/-- The buffers of the two-line display after a call; `none` if it does not return. -/
def BufS.call (b : BufS) : UiCall → Option BufS
  | .review v z =>
    match reviewUpdateS v z b with
    | .shown _ b | .failed _ b | .rejected _ b => some b
    | .panic | .hang => none
  | .reviewX .. => some b
  | .error => b.showError.toOption
  | .idle e => (b.showIdle e).toOption

/-- The buffers of the larger display after a call; the second step of the menu is entered by a button. -/
def BufX.call (b : BufX) : UiCall → Option BufX
  | .reviewX v z =>
    match reviewUpdateXB v z b with
    | .shown _ b | .failed _ b | .rejected _ b | .noData _ b => some b
    | .panic | .hang => none
  | .review .. => some b
  | .error => b.showError.toOption
  | .idle e => (b.showIdle >>= BufX.updateExpert e).toOption

/-- The reviews of a call are among those of the app. -/
def UiCall.OfApp : UiCall → Prop
  | .review v _ | .reviewX v _ => ∀ w, v = some w → ∃ cr mem view, w = View.viewer cr mem view
  | _ => True

theorem UiCall.OfApp.clean {v : Option Viewer} (h : ∀ w, v = some w → ∃ cr mem view, w = View.viewer cr mem view) :
    ∀ w, v = some w → w.Clean := by
  intro w hw
  obtain ⟨cr, mem, view, rfl⟩ := h w hw
  exact C99_clean cr mem view

theorem BufS.init_sound : BufS.init.Sound :=
  ⟨List.length_replicate, List.length_replicate, List.length_replicate, by
    intro c hc
    rw [List.eq_of_mem_replicate hc]
    decide⟩

theorem BufX.init_sound : BufX.init.Sound :=
  ⟨List.length_replicate, List.length_replicate, by
    intro c hc
    rw [List.eq_of_mem_replicate hc]
    decide, by
    intro c hc
    rw [List.eq_of_mem_replicate hc]
    decide⟩

theorem writeFront_text {b t : Bytes} (ha : Ascii7 b) (ht : (0 : UInt8) ∉ t) (hta : Ascii7 t) (hl : t.length < b.length) :
    ∃ b', writeFront b (t ++ [0]) = .ok b' ∧ b'.length = b.length ∧ Ascii7 b' ∧ cString b' = t := by
  refine ⟨_, writeFront_ok (by simp; omega), by simp; omega, ?_, ?_⟩
  · exact (hta.append (Ascii7.zero (by intro c hc; simp at hc))).append (ha.drop _)
  · rw [List.append_assoc]
    exact cString_append ht

/-- A literal without NUL, in ASCII. -/
def plainText (s : String) : Bool := (ascii s).all fun c => decide (c ≠ 0 ∧ c < 0x80)

theorem plainText.clean {s : String} (h : plainText s = true) : (0 : UInt8) ∉ ascii s ∧ Ascii7 (ascii s) := by
  simp only [plainText, List.all_eq_true, decide_eq_true_eq] at h
  exact ⟨fun h0 => (h 0 h0).1 rfl, fun c hc => (h c hc).2⟩

/-- C99, two-line display: the error screen shows its own texts only, whatever the buffers held. -/
theorem C99_error_small {b : BufS} (hb : b.Sound) : ∃ b', b.showError = .ok b' ∧ b'.Sound ∧
    b'.screen = .review (ascii "ERROR") (ascii "SHOWING DATA") [] := by
  have p1 := plainText.clean (s := "ERROR") (by decide +kernel)
  have p2 := plainText.clean (s := "SHOWING DATA") (by decide +kernel)
  obtain ⟨k, k1, k2, k3, k4⟩ := writeFront_text hb.ascii p1.1 p1.2 (by rw [hb.key]; decide +kernel)
  have hm : messageS.length = 35 := by simp [messageS, messageSize]
  have hma : Ascii7 messageS := by
    intro c hc
    rw [List.eq_of_mem_replicate hc]
    decide
  obtain ⟨m, m1, -, -, m4⟩ := writeFront_text hma p2.1 p2.2 (by rw [hm]; decide +kernel)
  have hb' : BufS.Sound { b with key := k } := ⟨by rw [k2, hb.key], hb.value, hb.value2, k3⟩
  obtain ⟨b2, e1, e2, e3, e4, e5⟩ := BufS.split_reads hb' (msg := m) (by rw [m4]; decide +kernel)
  unfold BufS.showError
  rw [k1, m1]
  dsimp only [bind, Except.bind]
  rw [e1]
  refine ⟨b2, rfl, e2, ?_⟩
  unfold BufS.screen
  rw [e3, e4, e5, m4]
  dsimp only
  rw [k4]
  decide +kernel

/-- C99, two-line display: the menu shows its own texts only: the status, and under "Expert mode:" what is the case. -/
theorem C99_menu_small {b : BufS} (hb : b.Sound) (expert : Bool) : ∃ b', b.showIdle expert = .ok b' ∧ b'.Sound ∧
    cString b'.key = ascii "DO NOT USE" ∧ cString b'.value = ascii (if expert then "enabled" else "disabled") := by
  have p1 := plainText.clean (s := "DO NOT USE") (by decide +kernel)
  have p2 := plainText.clean (s := expertText expert) (by cases expert <;> decide +kernel)
  obtain ⟨k, k1, k2, k3, k4⟩ := writeFront_text hb.ascii p1.1 p1.2 (by rw [hb.key]; decide +kernel)
  have hl : (ascii (expertText expert) ++ [0]).length ≤ b.value.length := by
    rw [hb.value]
    cases expert <;> decide +kernel
  unfold BufS.showIdle BufS.updateExpert
  rw [k1]
  dsimp only [bind, Except.bind]
  rw [writeFront_ok hl]
  refine ⟨_, rfl, ⟨by rw [k2, hb.key], ?_, hb.value2, k3⟩, k4, ?_⟩
  · have := hb.value
    simp only [List.length_append, List.length_drop, this] at hl ⊢
    omega
  · dsimp only
    rw [List.append_assoc]
    exact cString_append p2.1

/-- C99, larger display: the error screen. -/
theorem C99_error_large {b : BufX} (hb : b.Sound) : ∃ b', b.showError = .ok b' ∧ b'.Sound ∧
    cString b'.key = ascii "ERROR" ∧ cString b'.message = ascii "SHOWING DATA" := by
  have p1 := plainText.clean (s := "ERROR") (by decide +kernel)
  have p2 := plainText.clean (s := "SHOWING DATA") (by decide +kernel)
  obtain ⟨k, k1, k2, k3, k4⟩ := writeFront_text hb.ascii p1.1 p1.2 (by rw [hb.key]; decide +kernel)
  obtain ⟨m, m1, m2, m3, m4⟩ := writeFront_text hb.ascii' p2.1 p2.2 (by rw [hb.message]; decide +kernel)
  unfold BufX.showError
  rw [k1, hb.ascii'.expect, m1]
  exact ⟨_, rfl, ⟨by rw [k2, hb.key], by rw [m2, hb.message], k3, m3⟩, k4, m4⟩

/-- C99, larger display: the first two steps of the menu. -/
theorem C99_menu_large {b : BufX} (hb : b.Sound) (expert : Bool) :
    (∃ b', b.showIdle = .ok b' ∧ b'.Sound ∧ cString b'.key = ascii "DO NOT USE") ∧
    ∃ b', b.updateExpert expert = .ok b' ∧ b'.Sound ∧ b'.key = b.key ∧
      cString b'.message = ascii (if expert then "enabled" else "disabled") := by
  have p1 := plainText.clean (s := "DO NOT USE") (by decide +kernel)
  have p2 := plainText.clean (s := expertText expert) (by cases expert <;> decide +kernel)
  obtain ⟨k, k1, k2, k3, k4⟩ := writeFront_text hb.ascii p1.1 p1.2 (by rw [hb.key]; decide +kernel)
  obtain ⟨m, m1, m2, m3, m4⟩ := writeFront_text hb.ascii' p2.1 p2.2
    (by rw [hb.message]; cases expert <;> decide +kernel)
  constructor
  · unfold BufX.showIdle
    rw [k1]
    exact ⟨_, rfl, ⟨by rw [k2, hb.key], hb.message, k3, hb.ascii'⟩, k4⟩
  · unfold BufX.updateExpert
    rw [m1]
    exact ⟨_, rfl, ⟨hb.key, by rw [m2, hb.message], hb.ascii, m3⟩, rfl, m4⟩

theorem BufS.call_sound {b b' : BufS} (hb : b.Sound) {c : UiCall} (hc : c.OfApp) (h : b.call c = some b') : b'.Sound := by
  cases c with
  | review v z =>
    have hr := reviewUpdateS_reads (UiCall.OfApp.clean hc) z hb
    unfold BufS.call at h
    dsimp only at h
    generalize reviewUpdateS v z b = u at hr h
    generalize reviewUpdate v z = w at hr
    cases hr <;> first | (cases h; assumption) | cases h
  | reviewX v z => cases h; exact hb
  | error =>
    obtain ⟨b2, e1, e2, -⟩ := C99_error_small hb
    simp only [BufS.call, e1, Except.toOption, Option.some.injEq] at h
    exact h ▸ e2
  | idle e =>
    obtain ⟨b2, e1, e2, -⟩ := C99_menu_small hb e
    simp only [BufS.call, e1, Except.toOption, Option.some.injEq] at h
    exact h ▸ e2

theorem BufX.call_sound {b b' : BufX} (hb : b.Sound) {c : UiCall} (hc : c.OfApp) (h : b.call c = some b') : b'.Sound := by
  cases c with
  | reviewX v z =>
    have hr := reviewUpdateXB_reads (UiCall.OfApp.clean hc) z hb
    unfold BufX.call at h
    dsimp only at h
    generalize reviewUpdateXB v z b = u at hr h
    generalize reviewUpdateX v (b.on z) = w at hr
    cases hr <;> first | (cases h; assumption) | cases h
  | review v z => cases h; exact hb
  | error =>
    obtain ⟨b2, e1, e2, -⟩ := C99_error_large hb
    simp only [BufX.call, e1, Except.toOption, Option.some.injEq] at h
    exact h ▸ e2
  | idle e =>
    obtain ⟨b2, e1, e2, -⟩ := (C99_menu_large hb e).1
    obtain ⟨b3, f1, f2, -⟩ := (C99_menu_large e2 e).2
    simp only [BufX.call, e1, bind, Except.bind, f1, Except.toOption, Option.some.injEq] at h
    exact h ▸ f2

/-- The buffers after a sequence of calls. -/
def BufS.calls : List UiCall → BufS → Option BufS
  | [], b => some b
  | c :: cs, b => (b.call c).bind (BufS.calls cs)

def BufX.calls : List UiCall → BufX → Option BufX
  | [], b => some b
  | c :: cs, b => (b.call c).bind (BufX.calls cs)

theorem BufS.calls_sound {cs : List UiCall} (hcs : ∀ c ∈ cs, c.OfApp) {b b' : BufS} (hb : b.Sound)
    (h : b.calls cs = some b') : b'.Sound := by
  induction cs generalizing b with
  | nil => cases h; exact hb
  | cons c cs ih =>
    obtain ⟨b1, h1, h2⟩ := Option.bind_eq_some_iff.mp h
    exact ih (fun c hc => hcs c (List.mem_cons_of_mem _ hc)) (BufS.call_sound hb (hcs c List.mem_cons_self) h1) h2

theorem BufX.calls_sound {cs : List UiCall} (hcs : ∀ c ∈ cs, c.OfApp) {b b' : BufX} (hb : b.Sound)
    (h : b.calls cs = some b') : b'.Sound := by
  induction cs generalizing b with
  | nil => cases h; exact hb
  | cons c cs ih =>
    obtain ⟨b1, h1, h2⟩ := Option.bind_eq_some_iff.mp h
    exact ih (fun c hc => hcs c (List.mem_cons_of_mem _ hc)) (BufX.call_sound hb (hcs c List.mem_cons_self) h1) h2

/-- C99, two-line display: after any sequence of screens, drawing a position of a review ends as it does with the texts
alone - in particular it aborts only if the review does - and the lines read from the buffers are exactly the texts. -/
theorem C99_review_small (cs : List UiCall) (hcs : ∀ c ∈ cs, c.OfApp) (b : BufS) (h : BufS.init.calls cs = some b)
    (cr : Crypto) (mem : SwapBuf) (v : View) (z : Zui) :
    (reviewUpdateS (some (v.viewer cr mem)) z b).Reads (reviewUpdate (some (v.viewer cr mem)) z) :=
  reviewUpdateS_reads (fun _ e => by cases e; exact C99_clean cr mem v) z (BufS.calls_sound hcs BufS.init_sound h)

/-- C99, larger display: the same for the title and the text of an item. -/
theorem C99_review_large (cs : List UiCall) (hcs : ∀ c ∈ cs, c.OfApp) (b : BufX) (h : BufX.init.calls cs = some b)
    (cr : Crypto) (mem : SwapBuf) (v : View) (z : ZuiX) :
    (reviewUpdateXB (some (v.viewer cr mem)) z b).Reads (reviewUpdateX (some (v.viewer cr mem)) (b.on z)) :=
  reviewUpdateXB_reads (fun _ e => by cases e; exact C99_clean cr mem v) z (BufX.calls_sound hcs BufX.init_sound h)

/-- Satisfiable: after a review, the error screen and the menu, another review leaves its own two lines. -/
def demoCalls (chain : ChainID) : List UiCall :=
  let v := View.setup ⟨.ed25519, [0x8000002c]⟩ ⟨List.replicate 20 7⟩ 1000000 2 chain
  [.review (some (v.viewer Demo.crypto ⟨[], [], false, 0⟩)) (Zui.init .small),
    .reviewX (some (v.viewer Demo.crypto ⟨[], [], false, 0⟩)) ⟨0, 0, 0, 0, false, [], [], .title⟩, .error, .idle false]

set_option maxRecDepth 100000 in
example : (BufS.init.calls (demoCalls .mainnet)).isSome = true ∧ (BufX.init.calls (demoCalls .mainnet)).isSome = true := by
  decide +kernel

/-- The instruction of the development build that displays 34 bytes of the host (rust/app/src/handlers/dev/echo.rs
72-94), with its bytes as they are. -/
def echoRaw (bytes : Bytes) : Viewer :=
  ⟨.ok 1, fun n => if n = 0 then .ok ⟨ascii "Echo", bytes⟩ else .error .noData⟩

/-- Why texts must have no NUL inside: on the larger display of the development build, a byte that is not UTF-8 after a
NUL makes the app abort while it draws the text a second time, although nothing of it would be visible. -/
theorem C99_hidden_byte_aborts :
    reviewUpdateXB (some (echoRaw (List.replicate 17 65 ++ [0, 0xFF] ++ List.replicate 15 0))) ⟨0, 0, 0, 0, false, [], [], .title⟩
      BufX.init = .panic ∧
    reviewUpdateX (some (echoRaw (List.replicate 17 65 ++ [0, 0xFF] ++ List.replicate 15 0))) ⟨0, 0, 0, 0, false, [], [], .title⟩
      = .shown ⟨0, 2, 0, 1, false, ascii "Echo", List.replicate 17 65, .title⟩ := by
  decide +kernel

end Tezos
