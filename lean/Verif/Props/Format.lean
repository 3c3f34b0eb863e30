import Verif.Format
import Verif.Spec.Format
import Mathlib.Data.Nat.Digits.Lemmas
/-
C35 amount formatting, C36 paging, and the facts about base58 used by C40 and C52.
-/
set_option linter.unusedSimpArgs false
namespace Tezos
open Spec

/-! ### Digits -/

theorem digitsLE_eq {b : Nat} (hb : 2 ≤ b) (f n : Nat) (h : n < 2 ^ f) : digitsLE b f n = Nat.digits b n := by
  induction f generalizing n with
  | zero =>
    have : n = 0 := by simpa using h
    subst this; simp [digitsLE]
  | succ f ih =>
    unfold digitsLE
    split
    · rename_i h0; subst h0; simp
    · rename_i h0
      rw [Nat.digits_eq_cons_digits_div (by omega) h0, ih]
      have h1 : n / b ≤ n / 2 := Nat.div_le_div_left hb (by omega)
      have : 2 ^ (f + 1) = 2 * 2 ^ f := by ring
      omega

theorem lt_two_pow_log2 (n : Nat) : n < 2 ^ (n.log2 + 1) := Nat.lt_log2_self

theorem digit_toNat {d : Nat} (h : d < 10) : (UInt8.ofNat (48 + d)).toNat = 48 + d := by
  simp only [UInt8.toNat_ofNat']; omega

theorem foldl_reverse_digits (l : List Nat) (h : ∀ d ∈ l, d < 10) :
    ((l.reverse.map fun d => UInt8.ofNat (48 + d)).foldl (fun a c => a * 10 + (c.toNat - 48)) 0) =
      Nat.ofDigits 10 l := by
  induction l with
  | nil => rfl
  | cons d ds ih =>
    simp only [List.reverse_cons, List.map_append, List.map_cons, List.map_nil, List.foldl_append,
      List.foldl_cons, List.foldl_nil]
    rw [ih (fun d hd => h d (by simp [hd])), digit_toNat (h d (by simp)), Nat.ofDigits_cons]
    omega

theorem decimal_digits (n : Nat) (h : n ≠ 0) :
    decimal n = (Nat.digits 10 n).reverse.map fun d => UInt8.ofNat (48 + d) := by
  unfold decimal
  rw [if_neg h, digitsLE_eq (by omega) _ _ (lt_two_pow_log2 n)]

/-- The decimal text of a number denotes it. -/
theorem textValue_decimal (n : Nat) : textValue (decimal n) = n := by
  by_cases h : n = 0
  · subst h; rfl
  · rw [decimal_digits n h, textValue,
      foldl_reverse_digits _ (fun d hd => Nat.digits_lt_base (by omega) hd), Nat.ofDigits_digits]

theorem decimal_isDigit (n : Nat) : ∀ c ∈ decimal n, isDigit c := by
  by_cases h : n = 0
  · subst h; simp [decimal, isDigit]
  · rw [decimal_digits n h]
    intro c hc
    simp only [List.mem_map, List.mem_reverse] at hc
    obtain ⟨d, hd, rfl⟩ := hc
    have := Nat.digits_lt_base (by omega) hd
    rw [isDigit, digit_toNat this]
    omega

theorem decimal_injective {a b : Nat} (h : decimal a = decimal b) : a = b := by
  rw [← textValue_decimal a, h, textValue_decimal]

theorem decimal_ne_nil (n : Nat) : decimal n ≠ [] := by
  by_cases h : n = 0
  · subst h; simp [decimal]
  · rw [decimal_digits n h]
    simp [Nat.digits_ne_nil_iff_ne_zero.mpr h]

/-- No superfluous leading zero. -/
theorem decimal_head (n : Nat) (h : n ≠ 0) : ∃ c cs, decimal n = c :: cs ∧ c ≠ 48 := by
  rw [decimal_digits n h]
  have hne : Nat.digits 10 n ≠ [] := Nat.digits_ne_nil_iff_ne_zero.mpr h
  have hl := Nat.getLast_digit_ne_zero 10 h
  have hlt := Nat.digits_lt_base (b := 10) (m := n) (by omega) (List.getLast_mem hne)
  have hd := List.dropLast_append_getLast hne
  rw [← hd]
  simp only [List.reverse_append, List.reverse_cons, List.reverse_nil, List.nil_append, List.cons_append,
    List.map_cons]
  refine ⟨_, _, rfl, ?_⟩
  intro h48
  have := congrArg UInt8.toNat h48
  rw [digit_toNat hlt] at this
  simp at this
  exact hl this

theorem decimal_length_le {n k : Nat} (h : n < 10 ^ k) (hk : 0 < k) : (decimal n).length ≤ k := by
  by_cases h0 : n = 0
  · subst h0; simp [decimal]; omega
  · rw [decimal_digits n h0]
    simp only [List.length_map, List.length_reverse]
    exact Nat.digits_length_le_iff (by omega) n |>.mpr h

theorem decimalI32_injective {a b : UInt32} (h : decimalI32 a = decimalI32 b) : a = b := by
  have key : ∀ n m : Nat, decimal n ≠ 45 :: decimal m := by
    intro n m heq
    have := decimal_isDigit n 45 (by rw [heq]; simp)
    simp [isDigit] at this
  unfold decimalI32 at h
  have ha := a.toNat_lt
  have hb := b.toNat_lt
  apply UInt32.toNat_inj.mp
  split at h <;> split at h
  · exact decimal_injective h
  · exact absurd h (key _ _)
  · exact absurd h.symm (key _ _)
  · simp only [List.cons.injEq, true_and] at h
    have := decimal_injective h
    omega

/-! ### Hexadecimal -/

theorem hexDigit_injective {a b : Nat} (ha : a < 16) (hb : b < 16) (h : hexDigit a = hexDigit b) : a = b :=
  (by decide : ∀ a < 16, ∀ b < 16, hexDigit a = hexDigit b → a = b) a ha b hb h

theorem hexEncode_injective {a b : Bytes} (h : hexEncode a = hexEncode b) : a = b := by
  induction a generalizing b with
  | nil =>
    cases b with
    | nil => rfl
    | cons y ys => simp [hexEncode] at h
  | cons x xs ih =>
    cases b with
    | nil => simp [hexEncode] at h
    | cons y ys =>
      simp only [hexEncode, List.flatMap_cons, List.cons_append, List.nil_append, List.cons.injEq] at h
      have hx := x.toNat_lt
      have hy := y.toNat_lt
      have h1 := hexDigit_injective (by omega) (by omega) h.1
      have h2 := hexDigit_injective (by omega) (by omega) h.2.1
      have : x = y := by apply UInt8.toNat_inj.mp; omega
      rw [this, ih h.2.2]

theorem hexEncode_length (b : Bytes) : (hexEncode b).length = 2 * b.length := by
  induction b with
  | nil => rfl
  | cons x xs ih =>
    simp only [hexEncode, List.flatMap_cons, List.length_append, List.length_cons, List.length_nil] at ih ⊢
    omega

/-! ### Base58 -/

theorem bytesValue_eq (l : Bytes) : bytesValue l = Nat.ofDigits 256 (l.reverse.map UInt8.toNat) := by
  unfold bytesValue
  induction l using List.reverseRecOn with
  | nil => rfl
  | append_singleton l x ih =>
    simp only [List.foldl_append, List.foldl_cons, List.foldl_nil, List.reverse_append, List.reverse_cons,
      List.reverse_nil, List.nil_append, List.cons_append, List.map_cons, Nat.ofDigits_cons]
    rw [ih]; omega

theorem bytesValue_lt (l : Bytes) : bytesValue l < 256 ^ l.length := by
  rw [bytesValue_eq]
  have := Nat.ofDigits_lt_base_pow_length (b := 256) (l := l.reverse.map UInt8.toNat) (by omega)
    (by intro x hx; simp only [List.mem_map] at hx; obtain ⟨y, _, rfl⟩ := hx; exact y.toNat_lt)
  simpa using this

theorem bytesValue_lt_two (l : Bytes) : bytesValue l < 2 ^ (8 * l.length) := by
  have := bytesValue_lt l
  rwa [show (256 : Nat) = 2 ^ 8 by norm_num, ← pow_mul] at this

theorem bytesValue_replicate_zero (z : Nat) (l : Bytes) :
    bytesValue (List.replicate z 0 ++ l) = bytesValue l := by
  unfold bytesValue
  rw [List.foldl_append]
  congr 1
  induction z with
  | zero => rfl
  | succ z ih => simp [List.replicate_succ, ih]

/-- Every byte string is its leading zeros and a rest without leading zero. -/
theorem leadingZeros_split (l : Bytes) :
    ∃ z r, l = List.replicate z 0 ++ r ∧ (l.takeWhile (· == 0)).length = z ∧
      (∀ h : r ≠ [], r.head h ≠ 0) := by
  induction l with
  | nil => exact ⟨0, [], rfl, rfl, fun h => absurd rfl h⟩
  | cons x xs ih =>
    by_cases hx : x = 0
    · subst hx
      obtain ⟨z, r, hl, hz, hr⟩ := ih
      exact ⟨z + 1, r, by simp [List.replicate_succ, ← hl], by simp [hz], hr⟩
    · refine ⟨0, x :: xs, rfl, ?_, fun _ => hx⟩
      simp [hx]

theorem digits_bytesValue (r : Bytes) (h : ∀ hr : r ≠ [], r.head hr ≠ 0) :
    Nat.digits 256 (bytesValue r) = r.reverse.map UInt8.toNat := by
  rw [bytesValue_eq]
  apply Nat.digits_ofDigits 256 (by omega)
  · intro x hx; simp only [List.mem_map] at hx; obtain ⟨y, _, rfl⟩ := hx; exact y.toNat_lt
  · intro hne
    simp only [ne_eq, List.map_eq_nil_iff, List.reverse_eq_nil_iff] at hne
    simp only [List.getLast_map, List.getLast_reverse]
    intro h0
    exact h hne (UInt8.toNat_inj.mp (by simpa using h0))

theorem base58Char_injective {a b : Nat} (ha : a < 58) (hb : b < 58) (h : base58Char a = base58Char b) :
    a = b :=
  (by decide +kernel : ∀ a < 58, ∀ b < 58, base58Char a = base58Char b → a = b) a ha b hb h

theorem map_inj_on {α β : Type} {f : α → β} {l₁ l₂ : List α} (P : α → Prop)
    (hf : ∀ a b, P a → P b → f a = f b → a = b) (h₁ : ∀ x ∈ l₁, P x) (h₂ : ∀ x ∈ l₂, P x)
    (h : l₁.map f = l₂.map f) : l₁ = l₂ := by
  induction l₁ generalizing l₂ with
  | nil => cases l₂ with
    | nil => rfl
    | cons y ys => simp at h
  | cons x xs ih => cases l₂ with
    | nil => simp at h
    | cons y ys =>
      simp only [List.map_cons, List.cons.injEq] at h
      rw [hf x y (h₁ x (by simp)) (h₂ y (by simp)) h.1,
        ih (fun x hx => h₁ x (by simp [hx])) (fun x hx => h₂ x (by simp [hx])) h.2]

/-- The part of the text after the leading `1`s does not start with `1`. -/
theorem base58_head (n : Nat) :
    ∀ h : (Nat.digits 58 n).reverse.map base58Char ≠ [],
      ((Nat.digits 58 n).reverse.map base58Char).head h ≠ 49 := by
  intro h h49
  have hn : n ≠ 0 := by
    rintro rfl; simp at h
  have hne : Nat.digits 58 n ≠ [] := Nat.digits_ne_nil_iff_ne_zero.mpr hn
  have hl := Nat.getLast_digit_ne_zero 58 hn
  have hlt := Nat.digits_lt_base (b := 58) (m := n) (by omega) (List.getLast_mem hne)
  simp only [List.head_map, List.head_reverse] at h49
  exact hl (base58Char_injective hlt (by omega) (by rw [h49]; rfl))

theorem takeWhile_ones (z : Nat) (t : Bytes) (h : ∀ ht : t ≠ [], t.head ht ≠ 49) :
    ((List.replicate z 49 ++ t).takeWhile (· == 49)).length = z := by
  induction z with
  | zero =>
    cases t with
    | nil => rfl
    | cons c cs =>
      have := h (by simp)
      simp only [List.head_cons] at this
      simp [this]
  | succ z ih =>
    rw [List.replicate_succ, List.cons_append, List.takeWhile_cons_of_pos (by simp), List.length_cons, ih]

theorem base58_eq (l : Bytes) :
    base58 l = List.replicate (l.takeWhile (· == 0)).length 49 ++
      (Nat.digits 58 (bytesValue l)).reverse.map base58Char := by
  unfold base58
  rw [digitsLE_eq (by omega) _ _ (bytesValue_lt_two l)]

/-- Base58 text determines the bytes. -/
theorem base58_injective {a b : Bytes} (h : base58 a = base58 b) : a = b := by
  rw [base58_eq, base58_eq] at h
  obtain ⟨za, ra, ha, hza, hra⟩ := leadingZeros_split a
  obtain ⟨zb, rb, hb, hzb, hrb⟩ := leadingZeros_split b
  rw [hza, hzb] at h
  have hz : za = zb := by
    have := congrArg (fun t => (t.takeWhile (· == 49)).length) h
    simp only [takeWhile_ones _ _ (base58_head _)] at this
    exact this
  subst hz
  have h2 := List.append_cancel_left h
  have h3 := map_inj_on (· < 58) (fun _ _ => base58Char_injective)
    (by intro x hx; exact Nat.digits_lt_base (by omega) (by simpa using hx))
    (by intro x hx; exact Nat.digits_lt_base (by omega) (by simpa using hx)) h2
  have h4 : bytesValue a = bytesValue b := Nat.digits_inj_iff.mp (List.reverse_injective h3)
  rw [ha, hb, bytesValue_replicate_zero, bytesValue_replicate_zero] at h4
  have h5 := digits_bytesValue ra hra
  rw [h4, digits_bytesValue rb hrb] at h5
  have h6 : ra = rb := by
    apply List.reverse_injective
    exact (map_inj_on (fun _ => True) (fun _ _ _ _ h => UInt8.toNat_inj.mp h) (by simp) (by simp) h5).symm
  rw [ha, hb, h6]

/-- Text length: when `256^(n-z) ≤ 58^(c-z)` for every number `z` of leading zeros, `n` bytes fit in `c`
characters. -/
theorem base58_length_le {l : Bytes} {n c : Nat} (hl : l.length = n)
    (h : ∀ z ≤ n, z ≤ c ∧ 256 ^ (n - z) ≤ 58 ^ (c - z)) : (base58 l).length ≤ c := by
  rw [base58_eq]
  obtain ⟨z, r, hlr, hz, -⟩ := leadingZeros_split l
  rw [hz]
  simp only [List.length_append, List.length_replicate, List.length_map, List.length_reverse]
  have hlen : z + r.length = n := by rw [← hl, hlr]; simp
  have hv : bytesValue l < 256 ^ (n - z) := by
    rw [hlr, bytesValue_replicate_zero, show n - z = r.length by omega]
    exact bytesValue_lt r
  obtain ⟨hzc, hp⟩ := h z (by omega)
  have := (Nat.digits_length_le_iff (b := 58) (k := c - z) (by omega) (bytesValue l)).mpr (by omega)
  omega

theorem base58_fits_address {l : Bytes} (h : l.length = 27) : base58Into 37 l = .ok (base58 l) := by
  unfold base58Into; rw [if_pos]; exact base58_length_le h (by decide +kernel)
theorem base58_fits_hash {l : Bytes} (h : l.length = 38) : base58Into 52 l = .ok (base58 l) := by
  unfold base58Into; rw [if_pos]; exact base58_length_le h (by decide +kernel)
theorem base58_fits_unknown {l : Bytes} (h : l.length = 36) : base58Into 50 l = .ok (base58 l) := by
  unfold base58Into; rw [if_pos]; exact base58_length_le h (by decide +kernel)
theorem base58_fits_key32 {l : Bytes} (h : l.length = 40) : base58Into 56 l = .ok (base58 l) := by
  unfold base58Into; rw [if_pos]; exact base58_length_le h (by decide +kernel)
theorem base58_fits_key33 {l : Bytes} (h : l.length = 41) : base58Into 56 l = .ok (base58 l) := by
  unfold base58Into; rw [if_pos]; exact base58_length_le h (by decide +kernel)
theorem base58_fits_chain {l : Bytes} (h : l.length = 11) : base58Into 16 l = .ok (base58 l) := by
  unfold base58Into; rw [if_pos]; exact base58_length_le h (by decide +kernel)

-- The address of a baker of the registry.
example : base58 [6, 161, 159, 169, 189, 242, 62, 27, 165, 209, 228, 85, 60, 188, 183, 132, 147, 255, 132, 12, 65, 226, 11, 210, 125, 8, 22] = ascii "tz1b7YSEeNRqgmjuX4d4aiai2sQTF4A7WBZf" := by decide +kernel

/-! ### C35 -/

theorem takeWhile_append_stop {p : UInt8 → Bool} {t u : Bytes} (ht : ∀ c ∈ t, p c = true)
    (hu : ∀ h : u ≠ [], p (u.head h) = false) : (t ++ u).takeWhile p = t := by
  induction t with
  | nil =>
    cases u with
    | nil => rfl
    | cons c cs =>
      have := hu (by simp)
      simp only [List.head_cons] at this
      simp [this]
  | cons c cs ih =>
    rw [List.cons_append, List.takeWhile_cons_of_pos (ht c (by simp)), ih (fun c hc => ht c (by simp [hc]))]

theorem strlen_append_zeros {t : Bytes} (k : Nat) (ht : ∀ c ∈ t, c ≠ 0) :
    strlen (t ++ List.replicate k 0) = t.length := by
  unfold strlen
  rw [takeWhile_append_stop (by simpa using ht)]
  intro h
  cases k with
  | zero => simp at h
  | succ k => simp [List.replicate_succ]

theorem isDigit_ne_zero {c : UInt8} (h : isDigit c) : c ≠ 0 := by
  rintro rfl; simp [isDigit] at h

theorem isDigit_not {c : UInt8} (h : isDigit c) : ¬ (c < 48 ∨ 57 < c) := by
  simp only [UInt8.lt_iff_toNat_lt, not_or, Nat.not_lt]
  exact h

/-- Inserting the point into digits followed by terminators. -/
theorem insertPoint {p : Bytes} {d j : Nat} (hd : 0 < d) (hp : ∀ c ∈ p, isDigit c) (hl : d + 1 ≤ p.length) (hj : 1 ≤ j) :
    (do
      let s ← orPanic (copyWithin (p ++ List.replicate j 0) (p.length - d) d (p.length - d + 1))
      if p.length - d < s.length then
        let s := s.set (p.length - d) 46
        return s.take (strlen s)
      else .error .panic : Except FpErr Bytes) =
      .ok (p.take (p.length - d) ++ 46 :: p.drop (p.length - d)) := by
  obtain ⟨k, rfl⟩ : ∃ k, j = k + 1 := ⟨j - 1, by omega⟩
  have h1 : copyWithin (p ++ List.replicate (k + 1) 0) (p.length - d) d (p.length - d + 1) =
      some (p.take (p.length - d + 1) ++ p.drop (p.length - d) ++ List.replicate k 0) := by
    unfold copyWithin
    rw [if_pos (by simp; omega)]
    congr 2
    · rw [List.take_append_of_le_length (by omega), List.drop_append_of_le_length (by omega),
        List.take_append_of_le_length (by simp; omega)]
      rw [List.take_of_length_le (l := p.drop _) (by simp; omega)]
    · rw [show p.length - d + 1 + d = p.length + 1 by omega, ← List.drop_drop, List.drop_left']
      simp [List.replicate_succ]
      rfl
  rw [h1]
  simp only [orPanic]
  rw [ebind_ok_left]
  rw [if_pos (by simp only [List.length_append, List.length_take, List.length_drop, List.length_replicate, List.length_cons, List.length_nil, List.length_set]; omega)]
  have h2 : (p.take (p.length - d + 1) ++ p.drop (p.length - d) ++ List.replicate k 0).set (p.length - d) 46 =
      (p.take (p.length - d) ++ 46 :: p.drop (p.length - d)) ++ List.replicate k 0 := by
    have hpt : p.length - d < p.length := by omega
    rw [List.append_assoc, List.set_append_left _ _ (by simp only [List.length_append, List.length_take, List.length_drop, List.length_replicate, List.length_cons, List.length_nil, List.length_set]; omega),
      List.take_succ_eq_append_getElem hpt, List.set_append_right _ _ (by simp only [List.length_append, List.length_take, List.length_drop, List.length_replicate, List.length_cons, List.length_nil, List.length_set]; omega)]
    simp only [List.length_take, show min (p.length - d) p.length = p.length - d by omega, Nat.sub_self,
      List.set_cons_zero, List.append_assoc, List.cons_append, List.nil_append]
  simp only [h2]
  rw [strlen_append_zeros]
  · simp only [List.take_left', pure, Except.pure]
  · intro c hc
    simp only [List.mem_append, List.mem_cons] at hc
    rcases hc with hc | rfl | hc
    · exact isDigit_ne_zero (hp c (List.mem_of_mem_take hc))
    · decide
    · exact isDigit_ne_zero (hp c (List.mem_of_mem_drop hc))

/-- The conversion on digits without superfluous leading zero, in any buffer large enough. -/
theorem intstrToFpstr_eq {t : Bytes} {d k : Nat} (hd : 0 < d) (ht : ∀ c ∈ t, isDigit c) (hne : t ≠ [])
    (hh : t = [48] ∨ ∃ c cs, t = c :: cs ∧ c ≠ 48) (hk : 1 ≤ k) (hlen : d + 2 ≤ t.length + k) :
    intstrToFpstr (t ++ List.replicate k 0) d =
      .ok ((List.replicate (d + 1 - t.length) 48 ++ t).take (max t.length (d + 1) - d) ++
        46 :: (List.replicate (d + 1 - t.length) 48 ++ t).drop (max t.length (d + 1) - d)) := by
  have hz : ∀ c ∈ t, c ≠ 0 := fun c hc => isDigit_ne_zero (ht c hc)
  have hpos : 0 < t.length := List.length_pos_of_ne_nil hne
  unfold intstrToFpstr
  simp only [strlen_append_zeros k hz]
  rw [if_neg (by simp; omega), if_neg (by simp [hne])]
  simp only [if_neg (show t.length ≠ 0 by omega)]
  rw [List.take_left']
  swap; · rfl
  have hs : t.length + k = (t ++ List.replicate k (0 : UInt8)).length := by simp
  -- the scan for leading zeros changes nothing
  have hscan : ∀ f : Option Nat → Except FpErr (Bytes × Nat),
      (f (some 0) = .ok (t ++ List.replicate k 0, t.length)) →
      (t = [48] → f none = .ok (t ++ List.replicate k 0, t.length)) →
      (firstDigit t 0 >>= f) = .ok (t ++ List.replicate k 0, t.length) := by
    intro f h1 h2
    rcases hh with rfl | ⟨c, cs, rfl, hc⟩
    · simpa [firstDigit] using h2 rfl
    · have := isDigit_not (ht c (by simp))
      simpa [firstDigit, if_neg this, if_pos hc] using h1
  rw [ebind_assoc, hscan]
  rotate_left
  · have h1 : copyWithin (t ++ List.replicate k 0) 0 (t ++ List.replicate k (0 : UInt8)).length 0 =
        some (t ++ List.replicate k 0) := by
      unfold copyWithin
      rw [if_pos (by simp)]
      simp
    have h2 : fillFrom (t ++ List.replicate k 0) t.length 0 = some (t ++ List.replicate k 0) := by
      unfold fillFrom
      rw [if_pos (by simp)]
      simp
    simp only [Nat.sub_zero, h1, h2, orPanic, ebind_ok_left, ePure]
  · rintro rfl
    simp [fillFrom, orPanic]
  simp only [ebind_ok_left, if_neg (show d ≠ 0 by omega)]
  by_cases hL : t.length < d + 1
  · simp only [if_pos hL]
    have h1 : copyWithin (t ++ List.replicate k 0) 0 t.length (d - t.length + 1) =
        some ((t ++ List.replicate k 0).take (d - t.length + 1) ++ t ++ List.replicate (t.length + k - (d + 1)) 0) := by
      unfold copyWithin
      rw [if_pos (by simp; omega)]
      congr 2
      · simp
      · rw [show d - t.length + 1 + t.length = t.length + (d + 1 - t.length) by omega, ← List.drop_drop,
          List.drop_left', List.drop_replicate]
        · congr 1; omega
        · rfl
    have h2 : fillTo ((t ++ List.replicate k 0).take (d - t.length + 1) ++ t ++
        List.replicate (t.length + k - (d + 1)) 0) (d - t.length + 1) 48 =
        some ((List.replicate (d + 1 - t.length) 48 ++ t) ++ List.replicate (t.length + k - (d + 1)) 0) := by
      unfold fillTo
      rw [if_pos (by simp; omega)]
      congr 1
      rw [List.append_assoc, List.drop_left' (by simp; omega), List.append_assoc]
      congr 2
      omega
    have hp : ∀ c ∈ List.replicate (d + 1 - t.length) 48 ++ t, isDigit c := by
      intro c hc
      simp only [List.mem_append, List.mem_replicate] at hc
      rcases hc with ⟨-, rfl⟩ | hc
      · exact ⟨by decide, by decide⟩
      · exact ht c hc
    have hpl : (List.replicate (d + 1 - t.length) (48 : UInt8) ++ t).length = d + 1 := by simp; omega
    simp only [h1, h2, orPanic, ebind_ok_left, ePure,
      strlen_append_zeros _ (fun c hc => isDigit_ne_zero (hp c hc)), hpl]
    rw [if_neg (by omega)]
    have := insertPoint (d := d) (j := t.length + k - (d + 1)) hd hp (by omega) (by omega)
    rw [hpl] at this
    rw [show max t.length (d + 1) = d + 1 by omega]
    exact this
  · simp only [if_neg hL, ePure, ebind_ok_left]
    rw [if_neg (by omega), show d + 1 - t.length = 0 by omega, show max t.length (d + 1) = t.length by omega]
    simp only [List.replicate_zero, List.nil_append]
    exact insertPoint hd ht (by omega) hk

theorem textValue_append (a b : Bytes) : textValue (a ++ b) = textValue a * 10 ^ b.length + textValue b := by
  unfold textValue
  rw [List.foldl_append]
  generalize a.foldl (fun a c => a * 10 + (c.toNat - 48)) 0 = x
  induction b using List.reverseRecOn with
  | nil => simp
  | append_singleton l c ih =>
    simp only [List.foldl_append, List.foldl_cons, List.foldl_nil, List.length_append, List.length_cons,
      List.length_nil]
    rw [ih, pow_succ]; ring

theorem textValue_zeros (z : Nat) : textValue (List.replicate z 48) = 0 := by
  induction z with
  | zero => rfl
  | succ z ih =>
    rw [List.replicate_succ', textValue_append, ih]
    rfl

/-- **C35.** In any buffer that can hold the result, the conversion of the decimal digits of `n` yields
`n / 10^d` with exactly `d` decimals. -/
theorem C35_fixed_point (n d k : Nat) (hd : 0 < d) (hk : 1 ≤ k) (hlen : d + 2 ≤ (decimal n).length + k) :
    ∃ text, intstrToFpstr (decimal n ++ List.replicate k 0) d = .ok text ∧ IsFixedPoint d text n := by
  have ht := decimal_isDigit n
  have hh : decimal n = [48] ∨ ∃ c cs, decimal n = c :: cs ∧ c ≠ 48 := by
    by_cases h : n = 0
    · subst h; exact .inl rfl
    · exact .inr (decimal_head n h)
  refine ⟨_, intstrToFpstr_eq hd ht (decimal_ne_nil n) hh hk hlen, _, _, rfl, ?_, ?_, ?_, ?_, ?_, ?_⟩
  · simp; omega
  · intro c hc
    have := List.mem_of_mem_take hc
    simp only [List.mem_append, List.mem_replicate] at this
    rcases this with ⟨-, rfl⟩ | hc
    · exact ⟨by decide, by decide⟩
    · exact ht c hc
  · intro c hc
    have := List.mem_of_mem_drop hc
    simp only [List.mem_append, List.mem_replicate] at this
    rcases this with ⟨-, rfl⟩ | hc
    · exact ⟨by decide, by decide⟩
    · exact ht c hc
  · intro h
    have := congrArg List.length h
    simp only [List.length_append, List.length_take, List.length_replicate, List.length_nil] at this
    omega
  · intro cs hcs
    by_cases hL : (decimal n).length < d + 1
    · have := congrArg List.length hcs
      simp at this
      exact List.eq_nil_of_length_eq_zero (by omega)
    · exfalso
      rw [show d + 1 - (decimal n).length = 0 by omega] at hcs
      simp only [List.replicate_zero, List.nil_append] at hcs
      rcases hh with h | ⟨c, cs', h, hc⟩
      · rw [h] at hL; simp at hL; omega
      · rw [h] at hcs
        obtain ⟨m, hm⟩ : ∃ m, max (c :: cs').length (d + 1) - d = m + 1 := ⟨_, by
          rw [show max (c :: cs').length (d + 1) - d = max (c :: cs').length (d + 1) - d - 1 + 1 by omega]⟩
        rw [hm, List.take_succ_cons] at hcs
        simp only [List.cons.injEq] at hcs
        exact hc hcs.1
  · have hfl : ((List.replicate (d + 1 - (decimal n).length) 48 ++ decimal n).drop
        (max (decimal n).length (d + 1) - d)).length = d := by simp; omega
    have := textValue_append
      ((List.replicate (d + 1 - (decimal n).length) 48 ++ decimal n).take (max (decimal n).length (d + 1) - d))
      ((List.replicate (d + 1 - (decimal n).length) 48 ++ decimal n).drop (max (decimal n).length (d + 1) - d))
    rw [hfl, List.take_append_drop] at this
    rw [← this, textValue_append, textValue_zeros, textValue_decimal]
    simp

/-- **C35**, as used by the app: every amount that fits a 32-bit word is displayed exactly, in tez with six
decimals. -/
theorem C35_amount (n : Nat) (h : n < 2 ^ 32) : ∃ text, amountText n = .ok text ∧ IsFixedPoint 6 text n := by
  have hl := decimal_length_le (n := n) (k := 10) (by omega) (by omega)
  have hp : 0 < (decimal n).length := List.length_pos_of_ne_nil (decimal_ne_nil n)
  obtain ⟨text, ht, hf⟩ := C35_fixed_point n 6 (12 - (decimal n).length) (by omega) (by omega) (by omega)
  refine ⟨text, ?_, hf⟩
  unfold amountText
  rw [ht]

/-- The text of an amount determines it. -/
theorem IsFixedPoint.injective {d : Nat} {text : Bytes} {n m : Nat} (hn : IsFixedPoint d text n)
    (hm : IsFixedPoint d text m) : n = m := by
  obtain ⟨i, f, rfl, hf, -, -, -, -, rfl⟩ := hn
  obtain ⟨i', f', he, hf', -, -, -, -, rfl⟩ := hm
  have hl := congrArg List.length he
  simp at hl
  obtain ⟨rfl, h2⟩ := List.append_inj he (by omega)
  simp only [List.cons.injEq, true_and] at h2
  rw [h2]

theorem amountText_injective {n m : Nat} {t : Bytes} (hn : n < 2 ^ 32) (hm : m < 2 ^ 32)
    (h1 : amountText n = .ok t) (h2 : amountText m = .ok t) : n = m := by
  obtain ⟨t1, e1, f1⟩ := C35_amount n hn
  obtain ⟨t2, e2, f2⟩ := C35_amount m hm
  rw [h1] at e1; rw [h2] at e2
  simp only [Except.ok.injEq] at e1 e2
  subst e1; subst e2
  exact IsFixedPoint.injective f1 f2

example : amountText 1500000 = .ok (ascii "1.500000") := by rfl
example : amountText 42 = .ok (ascii "0.000042") := by rfl
example : amountText 0 = .ok (ascii "0.000000") := by rfl
example : amountText 4294967295 = .ok (ascii "4294.967295") := by rfl

/-- The conversion itself is not total on digit strings: three zeros abort (the count of characters is not
updated after trimming). No caller passes such a string. -/
theorem C35_zeros_abort : intstrToFpstr (ascii "000" ++ List.replicate 9 0) 6 = .error .panic := by rfl

/-! ### C36 -/

/-- Consecutive pieces of `m` bytes. -/
def chunksOf (m : Nat) : Nat → Bytes → List Bytes
  | 0, _ => []
  | f + 1, l => if l = [] then [] else l.take m :: chunksOf m f (l.drop m)

theorem chunksOf_flatten {m : Nat} (hm : 0 < m) (f : Nat) (l : Bytes) (hf : l.length ≤ f) :
    (chunksOf m f l).flatten = l := by
  induction f generalizing l with
  | zero =>
    have : l = [] := List.eq_nil_of_length_eq_zero (by omega)
    subst this; rfl
  | succ f ih =>
    unfold chunksOf
    split
    · rename_i h; subst h; rfl
    · rename_i h
      have := List.length_pos_of_ne_nil h
      rw [List.flatten_cons, ih _ (by simp; omega), List.take_append_drop]

theorem chunksOf_get {m : Nat} (hm : 0 < m) (f : Nat) (l : Bytes) (hf : l.length ≤ f) (k : Nat) :
    (chunksOf m f l)[k]? = nthChunk l m k := by
  induction f generalizing l k with
  | zero =>
    have : l = [] := List.eq_nil_of_length_eq_zero (by omega)
    subst this; simp [chunksOf, nthChunk]
  | succ f ih =>
    unfold chunksOf
    split
    · rename_i h; subst h; simp [nthChunk]
    · rename_i h
      have hpos := List.length_pos_of_ne_nil h
      cases k with
      | zero => simp [nthChunk, hpos]
      | succ k =>
        rw [List.getElem?_cons_succ, ih _ (by simp; omega)]
        unfold nthChunk
        have : (k + 1) * m = k * m + m := by ring
        simp only [List.length_drop, List.drop_drop]
        rw [this, Nat.add_comm m]
        split <;> split
        · rfl
        · omega
        · omega
        · rfl

theorem chunksOf_length {m : Nat} (hm : 0 < m) (f : Nat) (l : Bytes) (hf : l.length ≤ f) :
    (chunksOf m f l).length = (l.length + m - 1) / m := by
  induction f generalizing l with
  | zero =>
    have : l = [] := List.eq_nil_of_length_eq_zero (by omega)
    subst this
    simp only [chunksOf, List.length_nil, Nat.zero_add]
    exact (Nat.div_eq_of_lt (by omega)).symm
  | succ f ih =>
    unfold chunksOf
    split
    · rename_i h; subst h
      simp only [List.length_nil, Nat.zero_add]
      exact (Nat.div_eq_of_lt (by omega)).symm
    · rename_i h
      have hpos := List.length_pos_of_ne_nil h
      rw [List.length_cons, ih _ (by simp; omega), List.length_drop]
      by_cases hlm : l.length ≤ m
      · rw [show l.length - m + m - 1 = m - 1 by omega, Nat.div_eq_of_lt (show m - 1 < m by omega),
          show l.length + m - 1 = l.length - 1 + m by omega, Nat.add_div_right _ hm,
          Nat.div_eq_of_lt (show l.length - 1 < m by omega)]
      · rw [show l.length + m - 1 = (l.length - m + m - 1) + m by omega, Nat.add_div_right _ hm]

/-- The pages of a message on a screen of `m` characters. -/
def pagesOf (m : Nat) (item : Bytes) : List Bytes :=
  if item = [] then [[]] else chunksOf m item.length item

theorem pagesOf_paging {m : Nat} (hm : 0 < m) (item : Bytes) : IsPaging m item (pagesOf m item) := by
  unfold pagesOf
  split
  · rename_i h; subst h
    refine ⟨rfl, by simp, ?_, by simp⟩
    intro k p h hk; simp at hk
  · rename_i h
    have hpos := List.length_pos_of_ne_nil h
    have hlen := chunksOf_length hm item.length item (by omega)
    refine ⟨chunksOf_flatten hm _ _ (by omega), ?_, ?_, ?_⟩
    · intro h0
      rw [h0] at hlen
      have : 1 ≤ (item.length + m - 1) / m := (Nat.one_le_div_iff hm).mpr (by omega)
      simp at hlen; omega
    · intro k p hp hk
      rw [chunksOf_get hm _ _ (by omega)] at hp
      rw [hlen] at hk
      have : k + 2 ≤ (item.length + m - 1) / m := by omega
      rw [Nat.le_div_iff_mul_le hm] at this
      have e : (k + 2) * m = k * m + m + m := by ring
      unfold nthChunk at hp
      split at hp
      · simp only [Option.some.injEq] at hp
        subst hp
        simp; omega
      · simp at hp
    · intro p hp
      obtain ⟨k, hk⟩ := List.mem_iff_getElem?.mp hp
      rw [chunksOf_get hm _ _ (by omega)] at hk
      unfold nthChunk at hk
      split at hk
      · rename_i hlt
        simp only [Option.some.injEq] at hk
        subst hk
        refine ⟨by simp, ?_⟩
        intro h0
        have := congrArg List.length h0
        simp at this
        omega
      · simp at hk

theorem pagesOf_length {m : Nat} (hm : 0 < m) {item : Bytes} (h : item ≠ []) :
    (pagesOf m item).length = (item.length + m - 1) / m := by
  unfold pagesOf; rw [if_neg h]; exact chunksOf_length hm _ _ (by omega)

theorem pagesOf_short {m : Nat} {item : Bytes} (h : item.length < m) : pagesOf m item = [item] := by
  unfold pagesOf
  split
  · rename_i h; rw [h]
  · rename_i hne
    have hpos := List.length_pos_of_ne_nil hne
    obtain ⟨f, hf⟩ : ∃ f, item.length = f + 1 := ⟨item.length - 1, by omega⟩
    rw [hf, chunksOf, if_neg hne, List.take_of_length_le (by omega), List.drop_of_length_le (by omega)]
    cases f <;> simp [chunksOf]

/-- **C36, content.** Whatever the message and the screen size (at least one character), asking for page `k`
shows the `k`-th piece of the message, for every `k` below the number of pieces; the pieces together are the
message. -/
theorem C36_pages (m : Nat) (hm : 0 < m) (item : Bytes) :
    IsPaging m item (pagesOf m item) ∧
    ∀ (k : UInt8) (p : Bytes), (pagesOf m item)[k.toNat]? = some p →
      ∃ n, handleUi item (m + 1) k = .ok (p, n) := by
  refine ⟨pagesOf_paging hm item, ?_⟩
  intro k p hp
  unfold handleUi
  rw [if_neg (by omega)]
  simp only [Nat.add_sub_cancel]
  split
  · rename_i hle
    have hne : item ≠ [] := by rintro rfl; simp at hle; omega
    unfold pagesOf at hp
    rw [if_neg hne, chunksOf_get hm _ _ (by omega)] at hp
    rw [hp]
    exact ⟨_, rfl⟩
  · rename_i hlt
    rw [pagesOf_short (by omega)] at hp
    obtain ⟨hk, rfl⟩ : k.toNat = 0 ∧ p = item := by
      rw [List.getElem?_cons] at hp
      split at hp
      · rename_i h; exact ⟨h, by simpa using hp.symm⟩
      · simp at hp
    exact ⟨_, rfl⟩

/-- **C36, count, partial.** Unless the length is a positive multiple of the screen size, the announced
number of pages is the number of pieces (up to 255 pages). -/
theorem C36_count_partial (m : Nat) (hm : 0 < m) (item : Bytes) (hdiv : item.length % m ≠ 0 ∨ item = [])
    (hmax : (pagesOf m item).length < 256) (k : UInt8) (p : Bytes) (n : UInt8)
    (h : handleUi item (m + 1) k = .ok (p, n)) : n.toNat = (pagesOf m item).length := by
  unfold handleUi at h
  rw [if_neg (by omega)] at h
  simp only [Nat.add_sub_cancel] at h
  split at h
  · rename_i hle
    have hne : item ≠ [] := by rintro rfl; simp at hle; omega
    have hd := hdiv.resolve_right hne
    split at h
    · simp at h
    · simp only [Except.ok.injEq, Prod.mk.injEq] at h
      rw [← h.2]
      have hl := pagesOf_length hm hne
      have hq : (item.length + m - 1) / m = item.length / m + 1 := by
        have := Nat.div_add_mod item.length m
        have hr := Nat.mod_lt item.length hm
        rw [Nat.div_eq_iff (by omega)]
        have e : (item.length / m + 1) * m = m * (item.length / m) + m := by ring
        omega
      rw [hl, hq] at hmax ⊢
      generalize item.length / m = q at hmax
      simp only [UInt8.toNat_add, UInt8.toNat_ofNat', UInt8.reduceToNat]
      omega
  · rename_i hlt
    simp only [Except.ok.injEq, Prod.mk.injEq] at h
    rw [pagesOf_short (by omega), ← h.2]
    rfl

/-- **C36, count, negated.** When the length is a positive multiple of the screen size, one page too many is
announced and showing it fails. -/
theorem C36_count_exact_multiple (m q : Nat) (hm : 0 < m) (hq : 0 < q) (hq' : q < 255) (item : Bytes)
    (hl : item.length = q * m) :
    (pagesOf m item).length = q ∧
    (∃ p, handleUi item (m + 1) 0 = .ok (p, UInt8.ofNat (q + 1))) ∧
    handleUi item (m + 1) (UInt8.ofNat q) = .error .unknown := by
  have hpos : m ≤ q * m := Nat.le_mul_of_pos_left m hq
  have hne : item ≠ [] := by rintro rfl; simp at hl; omega
  refine ⟨?_, ?_, ?_⟩
  · rw [pagesOf_length hm hne, hl, Nat.div_eq_iff hm]
    have e : q * m + m = (q + 1) * m := by ring
    omega
  · unfold handleUi
    rw [if_neg (by omega)]
    simp only [Nat.add_sub_cancel]
    rw [if_pos (by omega)]
    refine ⟨item.take m, ?_⟩
    have hdivq : q * m / m = q := Nat.mul_div_cancel q hm
    simp only [nthChunk, UInt8.reduceToNat, Nat.zero_mul, List.drop_zero]
    rw [if_pos (by omega), hl, hdivq]
    simp only [Except.ok.injEq, Prod.mk.injEq, true_and]
    apply UInt8.toNat_inj.mp
    simp only [UInt8.toNat_add, UInt8.toNat_ofNat', UInt8.reduceToNat]
    omega
  · unfold handleUi
    rw [if_neg (by omega)]
    simp only [Nat.add_sub_cancel]
    rw [if_pos (by omega)]
    have : (UInt8.ofNat q).toNat = q := by simp only [UInt8.toNat_ofNat']; omega
    simp only [nthChunk, this]
    rw [if_neg (by omega)]

-- A 34-character message on the 34-character screen of the Nano S.
example : handleUi (List.replicate 34 65) 35 0 = .ok (List.replicate 34 65, 2) := by rfl
example : handleUi (List.replicate 34 65) 35 1 = .error .unknown := by rfl
-- An address takes two pages.
example : (pagesOf 34 (ascii "tz1b7YSEeNRqgmjuX4d4aiai2sQTF4A7WBZf")).length = 2 := by decide +kernel

end Tezos
