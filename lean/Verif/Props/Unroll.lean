import Verif.Unroll
import Verif.Props.Address
import Verif.Props.Display
/-
The names of bakers that the app shows are those of the file it is built from.
-/
namespace Spec
open Tezos (Bytes)

/-- The text of an address names the account with this prefix and this hash (leaving open whether the checksum of the
text is right). -/
def NamesAccount (addr pfx hash : Bytes) : Prop :=
  ∃ rest, IsBase58 addr (pfx ++ hash ++ rest) ∧ pfx.length = 3 ∧ hash.length = 20 ∧ 4 ≤ rest.length

end Spec

namespace Tezos
open Spec

/-! ### Base58 -/

theorem base58Digit_some {c : UInt8} {d : Nat} (h : base58Digit c = some d) : d < 58 ∧ base58Char d = c := by
  unfold base58Digit at h
  simp only at h
  split at h
  · rename_i hlt
    cases h
    refine ⟨hlt, ?_⟩
    have hl : base58Alphabet.length = 58 := rfl
    have hlt' : base58Alphabet.findIdx (· == c) < base58Alphabet.length := by rw [hl]; exact hlt
    have := List.findIdx_getElem (w := hlt')
    simp only [beq_iff_eq] at this
    unfold base58Char
    rw [List.getD_eq_getElem?_getD, List.getElem?_eq_getElem hlt', Option.getD_some, this]
  · cases h

theorem base58Digit_char (d : Nat) (h : d < 58) : base58Digit (base58Char d) = some d :=
  (by decide +kernel : ∀ d < 58, base58Digit (base58Char d) = some d) d h

/-- Digits of a number, least significant first, without zeros at the top. -/
structure Canonical (l : List Nat) : Prop where
  small : ∀ x ∈ l, x < 256
  top : ∀ h : l ≠ [], l.getLast h ≠ 0

theorem digitsLE_carry {v : Nat} (h : v < 256) : digitsLE 256 8 v = if v = 0 then [] else [v] := by
  simp only [digitsLE]
  split
  · rfl
  · rw [Nat.mod_eq_of_lt h, if_pos (Nat.div_eq_of_lt h)]

theorem timesPlus_spec {v : Nat} {l : List Nat} (hv : v < 58) (hl : Canonical l) :
    Canonical (timesPlus v l) ∧ Nat.ofDigits 256 (timesPlus v l) = Nat.ofDigits 256 l * 58 + v := by
  induction l generalizing v with
  | nil =>
    simp only [timesPlus, digitsLE_carry (show v < 256 by omega)]
    split
    · rename_i h0
      subst h0
      exact ⟨⟨by simp, fun h => absurd rfl h⟩, by simp⟩
    · rename_i h0
      exact ⟨⟨by simp; omega, fun _ => by simpa using h0⟩, by simp⟩
  | cons x xs ih =>
    have hx : x < 256 := hl.small x (by simp)
    have hxs : Canonical xs := ⟨fun y hy => hl.small y (by simp [hy]), fun h => by
      have := hl.top (by simp)
      rwa [List.getLast_cons h] at this⟩
    have hc : (v + x * 58) / 256 < 58 := by omega
    obtain ⟨h1, h2⟩ := ih hc hxs
    refine ⟨⟨?_, ?_⟩, ?_⟩
    · intro y hy
      rcases List.mem_cons.mp hy with rfl | hy
      · omega
      · exact h1.small y hy
    · intro hne
      simp only [timesPlus]
      by_cases hnil : timesPlus ((v + x * 58) / 256) xs = []
      · have hxs0 : xs = [] := by
          cases xs with
          | nil => rfl
          | cons y ys => simp [timesPlus] at hnil
        subst hxs0
        have hx0 : x ≠ 0 := by simpa using hl.top (by simp)
        have hnil' := hnil
        simp only [timesPlus, digitsLE_carry (show (v + x * 58) / 256 < 256 by omega)] at hnil
        split at hnil
        · rename_i h0
          simp only [hnil', List.getLast_singleton]
          omega
        · cases hnil
      · rw [List.getLast_cons hnil]
        exact h1.top hnil
    · simp only [timesPlus, Nat.ofDigits_cons, h2]
      omega

theorem base58Loop_spec {acc : List Nat} {t : Bytes} {r : List Nat} (ha : Canonical acc)
    (h : base58Loop acc t = some r) :
    ∃ ds : List Nat, (∀ d ∈ ds, d < 58) ∧ t = ds.map base58Char ∧ Canonical r ∧
      Nat.ofDigits 256 r = ds.foldl (fun a d => a * 58 + d) (Nat.ofDigits 256 acc) := by
  induction t generalizing acc with
  | nil =>
    cases h
    exact ⟨[], by simp, rfl, ha, rfl⟩
  | cons c cs ih =>
    simp only [base58Loop] at h
    split at h
    · cases h
    · rename_i d hd
      obtain ⟨hlt, hch⟩ := base58Digit_some hd
      obtain ⟨h1, h2⟩ := timesPlus_spec hlt ha
      obtain ⟨ds, h3, h4, h5, h6⟩ := ih h1 h
      refine ⟨d :: ds, ?_, by simp [hch, h4], h5, ?_⟩
      · intro x hx
        rcases List.mem_cons.mp hx with rfl | hx
        · exact hlt
        · exact h3 x hx
      · rw [h6, h2]
        rfl

theorem base58Loop_total {acc : List Nat} {ds : List Nat} (hd : ∀ d ∈ ds, d < 58) :
    ∃ r, base58Loop acc (ds.map base58Char) = some r := by
  induction ds generalizing acc with
  | nil => exact ⟨_, rfl⟩
  | cons d ds ih =>
    simp only [List.map_cons, base58Loop, base58Digit_char d (hd d (by simp))]
    exact ih (fun x hx => hd x (by simp [hx]))

theorem takeWhile_digits {ds : List Nat} (h : ∀ d ∈ ds, d < 58) :
    ((ds.map base58Char).takeWhile (· == 49)).length = (ds.takeWhile (· == 0)).length := by
  induction ds with
  | nil => rfl
  | cons d ds ih =>
    have hd := h d (by simp)
    have hiff : (base58Char d == 49) = (d == 0) :=
      (by decide +kernel : ∀ d < 58, (base58Char d == 49) = (d == 0)) d hd
    simp only [List.map_cons, List.takeWhile_cons, hiff]
    split
    · simp only [List.length_cons, ih (fun x hx => h x (by simp [hx]))]
    · rfl

theorem map_toNat_ofNat {l : List Nat} (h : ∀ x ∈ l, x < 256) : (l.map UInt8.ofNat).map UInt8.toNat = l := by
  rw [List.map_map]
  conv => rhs; rw [← List.map_id l]
  apply List.map_congr_left
  intro x hx
  simp [Nat.mod_eq_of_lt (h x hx)]

/-- The crate decodes base58. -/
theorem base58Decode_isBase58 {t b : Bytes} (h : base58Decode t = some b) : IsBase58 t b := by
  unfold base58Decode at h
  split at h
  · cases h
  rename_i acc hacc
  obtain ⟨ds, h1, h2, h3, h4⟩ := base58Loop_spec ⟨by simp, fun h => absurd rfl h⟩ hacc
  cases h
  refine ⟨ds, ?_, ?_, ?_⟩
  · rw [h2, List.map_map]
    exact List.map_congr_left fun d hd => (base58Char_letter d (h1 d hd)).symm
  · have hall : ∀ x ∈ (acc ++ List.replicate (t.takeWhile (· == 49)).length 0).reverse, x < 256 := by
      intro x hx
      rw [List.mem_reverse, List.mem_append] at hx
      rcases hx with hx | hx
      · exact h3.small x hx
      · rw [(List.mem_replicate.mp hx).2]; omega
    rw [map_toNat_ofNat hall, List.reverse_append, List.reverse_replicate, digitsValue_zeros, digitsValue_eq 256,
      List.reverse_reverse, h4]
    rfl
  · rw [← takeWhile_digits h1, ← h2]
    generalize (t.takeWhile (· == 49)).length = z
    rw [List.reverse_append, List.reverse_replicate, List.map_append, List.map_replicate]
    have hz : ∀ (l : List Nat), (∀ x ∈ l, x < 256) →
        ((l.map UInt8.ofNat).takeWhile (· == 0)).length = (l.takeWhile (· == 0)).length := by
      intro l hl
      induction l with
      | nil => rfl
      | cons x xs ih =>
        have hx := hl x (by simp)
        have hiff : (UInt8.ofNat x == 0) = (x == 0) :=
          (by decide +kernel : ∀ x < 256, (UInt8.ofNat x == 0) = (x == 0)) x hx
        simp only [List.map_cons, List.takeWhile_cons, hiff]
        split
        · simp only [List.length_cons, ih (fun y hy => hl y (by simp [hy]))]
        · rfl
    have := hz (List.replicate z 0 ++ acc.reverse) (by
      intro x hx
      rcases List.mem_append.mp hx with hx | hx
      · rw [(List.mem_replicate.mp hx).2]; omega
      · exact h3.small x (List.mem_reverse.mp hx))
    rw [List.map_append, List.map_replicate] at this
    rw [this]
    symm
    apply takeWhile_zeros
    intro hl
    rw [List.head_reverse]
    exact h3.top (by simpa using hl)

theorem base58Decode_iff {t b : Bytes} : base58Decode t = some b ↔ IsBase58 t b := by
  refine ⟨base58Decode_isBase58, fun h => ?_⟩
  have hd : ∃ ds : List Nat, (∀ d ∈ ds, d < 58) ∧ t = ds.map base58Char := by
    rw [IsBase58.unique h, base58_eq]
    refine ⟨List.replicate (b.takeWhile (· == 0)).length 0 ++ (Nat.digits 58 (bytesValue b)).reverse, ?_, ?_⟩
    · intro d hd
      rcases List.mem_append.mp hd with hd | hd
      · rw [(List.mem_replicate.mp hd).2]; omega
      · exact Nat.digits_lt_base (by omega) (List.mem_reverse.mp hd)
    · rw [List.map_append, List.map_replicate]; rfl
  obtain ⟨ds, h1, h2⟩ := hd
  obtain ⟨r, hr⟩ := base58Loop_total (acc := []) h1
  rw [← h2] at hr
  have hb : ∃ b', base58Decode t = some b' := by
    unfold base58Decode
    rw [hr]
    exact ⟨_, rfl⟩
  obtain ⟨b', hb'⟩ := hb
  rw [hb', base58_injective ((IsBase58.unique (base58Decode_isBase58 hb')).symm.trans (IsBase58.unique h))]

/-! ### The table -/

theorem KnownBaker.reduce_ok {i : Nat} {e : KnownBaker} {b : Baker} :
    e.reduce i = .ok b ↔ b.name = e.name ∧ NamesAccount e.addr b.pfx b.hash := by
  unfold KnownBaker.reduce
  constructor
  · intro h
    split at h
    · cases h
    rename_i d hd
    split at h
    · cases h
    rename_i hl
    cases h
    refine ⟨rfl, d.drop 23, ?_, by simp [slice]; omega, by simp [slice]; omega, by simp; omega⟩
    have : slice d 0 3 ++ slice d 3 20 ++ d.drop 23 = d := by
      unfold slice
      rw [List.drop_zero, List.append_assoc]
      conv => rhs; rw [← List.take_append_drop 3 d, ← List.take_append_drop 20 (d.drop 3), List.drop_drop]
    rw [this]
    exact base58Decode_iff.mp hd
  · rintro ⟨hn, rest, h58, h3, h20, hr⟩
    rw [base58Decode_iff.mpr h58]
    simp only
    rw [if_neg (by simp; omega)]
    have hp : slice (b.pfx ++ b.hash ++ rest) 0 3 = b.pfx := by
      unfold slice
      rw [List.drop_zero, List.append_assoc, List.take_append_of_le_length (by omega), List.take_of_length_le (by omega)]
    have hh : slice (b.pfx ++ b.hash ++ rest) 3 20 = b.hash := by
      unfold slice
      rw [List.append_assoc, List.drop_append_of_le_length (by omega), List.drop_of_length_le (by omega),
        List.nil_append, List.take_append_of_le_length (by omega), List.take_of_length_le (by omega)]
    rw [hp, hh, ← hn]

theorem reduceAll_mem {i : Nat} {es : List KnownBaker} {bs : List Baker} (h : reduceAll i es = .ok bs) (b : Baker) :
    b ∈ bs ↔ ∃ e ∈ es, b.name = e.name ∧ NamesAccount e.addr b.pfx b.hash := by
  induction es generalizing i bs with
  | nil => cases h; simp
  | cons e es ih =>
    simp only [reduceAll, ebind_ok] at h
    obtain ⟨c, hc, cs, hcs, h⟩ := h
    cases h
    have hc' := KnownBaker.reduce_ok.mp hc
    rw [List.mem_cons, ih hcs]
    constructor
    · rintro (rfl | ⟨e', he', h⟩)
      · exact ⟨e, by simp, hc'⟩
      · exact ⟨e', by simp [he'], h⟩
    · rintro ⟨e', he', h⟩
      rcases List.mem_cons.mp he' with rfl | he'
      · left
        have := (KnownBaker.reduce_ok (i := i)).mpr h
        rw [hc] at this
        cases this
        rfl
      · exact .inr ⟨e', he', h⟩

theorem reduceAll_total {i : Nat} {es : List KnownBaker} (h : ∀ e ∈ es, ∃ pfx hash, NamesAccount e.addr pfx hash) :
    ∃ bs, reduceAll i es = .ok bs := by
  induction es generalizing i with
  | nil => exact ⟨[], rfl⟩
  | cons e es ih =>
    obtain ⟨pfx, hash, hn⟩ := h e (by simp)
    obtain ⟨bs, hbs⟩ := ih (i := i + 1) (fun x hx => h x (by simp [hx]))
    refine ⟨⟨pfx, hash, e.name⟩ :: bs, ?_⟩
    simp only [reduceAll, ebind_ok]
    exact ⟨_, (KnownBaker.reduce_ok (b := ⟨pfx, hash, e.name⟩)).mpr ⟨rfl, hn⟩, bs, hbs, rfl⟩

theorem dedupFrom_mem (a b : Baker) (l : List Baker) : b ∈ dedupFrom a l ↔ b = a ∨ b ∈ l := by
  induction l generalizing a with
  | nil => simp [dedupFrom]
  | cons c l ih =>
    simp only [dedupFrom]
    split
    · rename_i hca
      rw [ih, hca]
      simp
    · rw [List.mem_cons, ih]
      simp

theorem dedupBakers_mem (b : Baker) (l : List Baker) : b ∈ dedupBakers l ↔ b ∈ l := by
  cases l with
  | nil => rfl
  | cons a l => simp only [dedupBakers, dedupFrom_mem, List.mem_cons]

theorem insertBaker_mem (a b : Baker) (l : List Baker) : b ∈ insertBaker a l ↔ b = a ∨ b ∈ l := by
  induction l with
  | nil => simp [insertBaker]
  | cons c l ih =>
    simp only [insertBaker]
    split
    · rw [List.mem_cons, ih]
      simp only [List.mem_cons]
      tauto
    · simp

theorem sortBakers_mem (b : Baker) (l : List Baker) : b ∈ sortBakers l ↔ b ∈ l := by
  induction l with
  | nil => rfl
  | cons a l ih => rw [show sortBakers (a :: l) = insertBaker a (sortBakers l) from rfl, insertBaker_mem, ih, List.mem_cons]

theorem Baker.cmp_key {a b : Baker} (ha : a.pfx.length = 3) (hb : b.pfx.length = 3) :
    a.cmp b.pfx b.hash = bytesCmp a.key b.key := by
  unfold Baker.key
  rw [bytesCmp_append (by rw [ha, hb])]
  rfl

theorem bytesCmp_le_trans {a b c : Bytes} (h1 : bytesCmp a b ≠ .gt) (h2 : bytesCmp b c ≠ .gt) : bytesCmp a c ≠ .gt := by
  cases h : bytesCmp b c with
  | lt => rw [bytesCmp_lt_trans h1 h]; simp
  | eq => rw [← bytesCmp_eq.mp h]; exact h1
  | gt => exact absurd h h2

theorem insertBaker_sorted {b : Baker} {l : List Baker} (hb : b.pfx.length = 3) (hp : ∀ c ∈ l, c.pfx.length = 3)
    (hs : l.Pairwise fun a b => bytesCmp a.key b.key ≠ .gt) :
    (insertBaker b l).Pairwise fun a b => bytesCmp a.key b.key ≠ .gt := by
  induction l with
  | nil => simp [insertBaker]
  | cons c l ih =>
    simp only [insertBaker, Baker.cmp_key hb (hp c (by simp))]
    rw [List.pairwise_cons] at hs
    split
    · rename_i hgt
      rw [List.pairwise_cons]
      refine ⟨?_, ih (fun x hx => hp x (by simp [hx])) hs.2⟩
      intro x hx
      rcases (insertBaker_mem b x l).mp hx with rfl | hx
      · rw [bytesCmp_swap, hgt]; decide
      · exact hs.1 x hx
    · rename_i hle
      rw [List.pairwise_cons, List.pairwise_cons]
      refine ⟨?_, hs⟩
      intro x hx
      rcases List.mem_cons.mp hx with rfl | hx
      · exact hle
      · exact bytesCmp_le_trans hle (hs.1 x hx)

theorem sortBakers_sorted {l : List Baker} (hp : ∀ c ∈ l, c.pfx.length = 3) :
    (sortBakers l).Pairwise fun a b => bytesCmp a.key b.key ≠ .gt := by
  induction l with
  | nil => exact List.Pairwise.nil
  | cons a l ih =>
    refine insertBaker_sorted (hp a (by simp)) ?_ (ih fun c hc => hp c (by simp [hc]))
    intro c hc
    exact hp c (by simp [(sortBakers_mem c l).mp hc])

theorem unrollTable_ok {es : List KnownBaker} {table : List Baker} (h : unrollTable es = .ok table) :
    (∀ b, b ∈ table ↔ ∃ e ∈ es, b.name = e.name ∧ NamesAccount e.addr b.pfx b.hash) ∧
    table.Pairwise fun a b => bytesCmp a.key b.key ≠ .gt := by
  simp only [unrollTable, ebind_ok] at h
  obtain ⟨v, hv, h⟩ := h
  cases h
  have hm : ∀ b, b ∈ dedupBakers v ↔ ∃ e ∈ es, b.name = e.name ∧ NamesAccount e.addr b.pfx b.hash := fun b => by
    rw [dedupBakers_mem, reduceAll_mem hv]
  refine ⟨fun b => by rw [sortBakers_mem, hm], sortBakers_sorted fun c hc => ?_⟩
  obtain ⟨_, _, _, _, _, h3, _⟩ := (hm c).mp hc
  exact h3

/-! ### The property -/

/-- C96: the build succeeds exactly if every entry of the file has the text of some account. -/
theorem C96_builds (es : List KnownBaker) :
    (∃ table, unrollTable es = .ok table) ↔ ∀ e ∈ es, ∃ pfx hash, NamesAccount e.addr pfx hash := by
  constructor
  · rintro ⟨table, h⟩ e he
    simp only [unrollTable, ebind_ok] at h
    obtain ⟨v, hv, -⟩ := h
    clear table
    generalize 0 = i at hv
    induction es generalizing i v with
    | nil => simp at he
    | cons x xs ih =>
      simp only [reduceAll, ebind_ok] at hv
      obtain ⟨c, hc, cs, hcs, _⟩ := hv
      rcases List.mem_cons.mp he with rfl | he
      · exact ⟨_, _, (KnownBaker.reduce_ok.mp hc).2⟩
      · exact ih he _ _ hcs
  · intro h
    obtain ⟨bs, hbs⟩ := reduceAll_total (i := 0) h
    exact ⟨_, by simp only [unrollTable, ebind_ok]; exact ⟨bs, hbs, rfl⟩⟩

/-- C96: whatever the file, in the app built from it an account is found under a name exactly if the file has an entry
for it, and the name is that of such an entry. -/
theorem C96_lookup {es : List KnownBaker} {table : List Baker} (h : unrollTable es = .ok table) (pfx hash : Bytes) :
    (∀ name, bakerLookupIn table pfx hash = some name →
      ∃ e ∈ es, e.name = name ∧ NamesAccount e.addr pfx hash) ∧
    (bakerLookupIn table pfx hash = none → ∀ e ∈ es, ¬ NamesAccount e.addr pfx hash) := by
  obtain ⟨hm, hs⟩ := unrollTable_ok h
  refine ⟨fun name hn => ?_, fun hn e he hc => ?_⟩
  · obtain ⟨b, hb, rfl, rfl, rfl⟩ := C56_name_is_registered _ _ _ _ hn
    obtain ⟨e, he, h1, h2⟩ := (hm b).mp hb
    exact ⟨e, he, h1.symm, h2⟩
  · have hb : (⟨pfx, hash, e.name⟩ : Baker) ∈ table := (hm _).mpr ⟨e, he, rfl, hc⟩
    have := C56_registered_is_found table (fun b hb => by
      obtain ⟨_, _, _, _, _, h3, _⟩ := (hm b).mp hb
      exact h3) hs _ hb
    simp only at this
    rw [hn] at this
    cases this

/-- The table of the app is the one made from the file. -/
theorem registryFile_table : unrollTable registryFile = .ok knownBakers := by
  have h : (unrollTable registryFile).toOption = some knownBakers := by decide +kernel
  cases hu : unrollTable registryFile with
  | error e => rw [hu] at h; cases h
  | ok t => rw [hu] at h; cases h; rfl

/-- C96: a delegate is shown by the name of an entry of the file for its account, if there is one, and by its address
if not. -/
theorem C96_shown (h : Hashes) (a : Account) (t : Bytes) :
    Shown.Text h (.baker a) t ↔
      (∃ e ∈ registryFile, NamesAccount e.addr a.kind.addressPrefix a.hash ∧ t = e.name) ∨
      ((∀ e ∈ registryFile, ¬ NamesAccount e.addr a.kind.addressPrefix a.hash) ∧ IsAddress h a t) := by
  have hm := (unrollTable_ok registryFile_table).1
  have h1 : ∀ t, (∃ b ∈ knownBakers, b.pfx = a.kind.addressPrefix ∧ b.hash = a.hash ∧ t = b.name) ↔
      ∃ e ∈ registryFile, NamesAccount e.addr a.kind.addressPrefix a.hash ∧ t = e.name := by
    intro t
    constructor
    · rintro ⟨b, hb, h1, h2, rfl⟩
      obtain ⟨e, he, h3, h4⟩ := (hm b).mp hb
      exact ⟨e, he, by rw [← h1, ← h2]; exact h4, h3⟩
    · rintro ⟨e, he, h1, rfl⟩
      exact ⟨⟨a.kind.addressPrefix, a.hash, e.name⟩, (hm _).mpr ⟨e, he, rfl, h1⟩, rfl, rfl, rfl⟩
  have h2 : (∀ b ∈ knownBakers, ¬ (b.pfx = a.kind.addressPrefix ∧ b.hash = a.hash)) ↔
      ∀ e ∈ registryFile, ¬ NamesAccount e.addr a.kind.addressPrefix a.hash := by
    constructor
    · intro hb e he hc
      exact hb ⟨a.kind.addressPrefix, a.hash, e.name⟩ ((hm _).mpr ⟨e, he, rfl, hc⟩) ⟨rfl, rfl⟩
    · rintro hb b hmem ⟨h3, h4⟩
      obtain ⟨e, he, _, h5⟩ := (hm b).mp hmem
      exact hb e he (by rw [← h3, ← h4]; exact h5)
  simp only [Shown.Text, h1, h2]

/-- Texts of accounts with checksums name these accounts. -/
theorem IsAddress.names {h : Hashes} {a : Account} {t : Bytes} (hl : ∀ x d, h.sha256 x = some d → d.length = 32)
    (ha : a.Valid) (ht : IsAddress h a t) : NamesAccount t a.kind.addressPrefix a.hash := by
  obtain ⟨d1, d2, _, h2, h3⟩ := ht
  refine ⟨d2.take 4, h3, by cases a.kind <;> rfl, ha, ?_⟩
  rw [List.length_take, hl _ _ h2]
  decide

/-- C96, in terms of addresses: an account whose address is in the file is found; and if the texts in the file are
addresses with the right checksum, then the name found is one that the file gives to the very address of the account. -/
theorem C96_by_address (h : Hashes) (hl : ∀ x d, h.sha256 x = some d → d.length = 32) {es : List KnownBaker}
    {table : List Baker} (hu : unrollTable es = .ok table) (a : Account) (ha : a.Valid) (t : Bytes)
    (ht : IsAddress h a t) :
    ((∃ e ∈ es, e.addr = t) → ∃ name, bakerLookupIn table a.kind.addressPrefix a.hash = some name) ∧
    ((∀ e ∈ es, ∃ b : Account, b.Valid ∧ IsAddress h b e.addr) →
      ∀ name, bakerLookupIn table a.kind.addressPrefix a.hash = some name → ∃ e ∈ es, e.name = name ∧ e.addr = t) := by
  obtain ⟨h1, h2⟩ := C96_lookup hu a.kind.addressPrefix a.hash
  constructor
  · rintro ⟨e, he, rfl⟩
    cases hk : bakerLookupIn table a.kind.addressPrefix a.hash with
    | none => exact absurd (IsAddress.names hl ha ht) (h2 hk e he)
    | some name => exact ⟨name, rfl⟩
  · intro hv name hn
    obtain ⟨e, he, hen, rest, h58, h3, h20, hr⟩ := h1 name hn
    refine ⟨e, he, hen, ?_⟩
    obtain ⟨b, hb, d1, d2, hd1, hd2, hb58⟩ := hv e he
    obtain ⟨c1, c2, hc1, hc2, hc58⟩ := ht
    have heq := base58_injective ((IsBase58.unique h58).symm.trans (IsBase58.unique hb58))
    have hpl : b.kind.addressPrefix.length = 3 := by cases b.kind <;> rfl
    have hbl : b.hash.length = 20 := hb
    have hab := (List.append_inj heq (by simp only [List.length_append]; omega)).1
    rw [← hab] at hd1 hb58
    rw [hc1] at hd1
    cases hd1
    rw [hc2] at hd2
    cases hd2
    rw [IsBase58.unique hb58, IsBase58.unique hc58]

/-- The checksum of an entry is not looked at: with a wrong one the same table is made. -/
theorem C96_checksum_ignored (name pfx hash r1 r2 : Bytes) (hp : pfx.length = 3) (hh : hash.length = 20)
    (h1 : 4 ≤ r1.length) (h2 : 4 ≤ r2.length) :
    unrollTable [⟨name, base58 (pfx ++ hash ++ r1)⟩] = .ok [⟨pfx, hash, name⟩] ∧
    unrollTable [⟨name, base58 (pfx ++ hash ++ r2)⟩] = .ok [⟨pfx, hash, name⟩] := by
  have key : ∀ r : Bytes, 4 ≤ r.length →
      unrollTable [⟨name, base58 (pfx ++ hash ++ r)⟩] = .ok [⟨pfx, hash, name⟩] := by
    intro r hr
    have := (KnownBaker.reduce_ok (i := 0) (e := ⟨name, base58 (pfx ++ hash ++ r)⟩) (b := ⟨pfx, hash, name⟩)).mpr
      ⟨rfl, r, base58_isBase58 _, hp, hh, hr⟩
    simp only [unrollTable, reduceAll, this, ebind_ok_left]
    rfl
  exact ⟨key r1 h1, key r2 h2⟩

/-- One account is registered twice, under different names, and is always shown by one of them. -/
theorem C96_two_names :
    ∃ e1 ∈ registryFile, ∃ e2 ∈ registryFile, e1.addr = e2.addr ∧ e1.name ≠ e2.name ∧
      ∃ pfx hash, NamesAccount e1.addr pfx hash ∧ bakerLookup pfx hash = some e2.name := by
  refine ⟨⟨text "Money Every 3 Days", text "tz1NEKxGEHsFufk87CVZcrqWu8o22qh46GK6"⟩, by decide +kernel,
    ⟨text "Money every 3 days", text "tz1NEKxGEHsFufk87CVZcrqWu8o22qh46GK6"⟩, by decide +kernel, rfl,
    by decide +kernel, ?_⟩
  have h : ∃ b, base58Decode (text "tz1NEKxGEHsFufk87CVZcrqWu8o22qh46GK6") = some b ∧ b.length = 27 ∧
      bakerLookup (slice b 0 3) (slice b 3 20) = some (text "Money every 3 days") := by
    refine ⟨(base58Decode (text "tz1NEKxGEHsFufk87CVZcrqWu8o22qh46GK6")).getD [], ?_, ?_, ?_⟩ <;> decide +kernel
  obtain ⟨b, hb, hl, hk⟩ := h
  refine ⟨slice b 0 3, slice b 3 20, ?_, hk⟩
  have hr : KnownBaker.reduce 0 ⟨[], text "tz1NEKxGEHsFufk87CVZcrqWu8o22qh46GK6"⟩ =
      .ok ⟨slice b 0 3, slice b 3 20, []⟩ := by
    simp only [KnownBaker.reduce, hb, hl]
    rfl
  exact (KnownBaker.reduce_ok.mp hr).2

/-- A file with two entries, out of order: the build succeeds, both accounts are found by their names, another account
is not; with a character that is not base58, or an address cut short, it fails. -/
example :
    let file : List KnownBaker := [⟨text "At James", text "tz3e75hU4EhDU3ukyJueh5v6UvEHzGwkg3yC"⟩,
      ⟨text "Obsidian", text "tz1eY5Aqa1kXDFoiebL28emyXFoneAoVg1zh"⟩]
    (unrollTable file).toOption.map (·.map Baker.name) = some [text "Obsidian", text "At James"] ∧
      (unrollTable [⟨text "Zero", text "tz1eY5Aqa1kXDFoiebL28emyXFoneAoVg10h"⟩]).toOption = none ∧
      (unrollTable [⟨text "Short", text "tz1eY5Aqa1kXDFoiebL28emyXFoneAo"⟩]).toOption = none := by
  decide +kernel

end Tezos
