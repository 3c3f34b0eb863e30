import Verif.Spec.Display
import Verif.Props.Identify
import Verif.Props.Batch
/-
C57: the review of a message says, item by item, what its operations are: `Spec.batchReview` gives for every item the
title and the meaning of the text, and the rendering functions of the app are shown to agree with it.
-/
namespace Tezos
open Spec

/-- The hash functions of the device. -/
def Crypto.hashes (cr : Crypto) : Hashes := ⟨cr.sha256, cr.blake2b 32⟩

/-- The hash functions do not fail. -/
structure Crypto.Works (cr : Crypto) : Prop where
  sized : cr.Sized
  sha256 : ∀ m, (cr.sha256 m).isSome
  blake2b : ∀ m, (cr.blake2b 32 m).isSome

/-- The text is all visible, but possibly for a NUL at its end. -/
def AllVisible (t : Bytes) : Prop := t = visible t ∨ t = visible t ++ [0]

/-- An item has the title it must have and its text says what it must. -/
structure Matches (h : Hashes) (e : String × Shown) (f : Field) : Prop where
  title : f.title = ascii e.1
  text : e.2.Text h (visible f.text)
  all : AllVisible f.text

/-- The outcome of rendering an item: if it is rendered it says what it must, and unless a hash function fails it is
rendered exactly when its number is one the device can read. -/
structure Renders (cr : Crypto) (r : Except VErr Field) (e : String × Shown) : Prop where
  correct : ∀ f, r = .ok f → Matches cr.hashes e f
  shown : cr.Works → ((∃ f, r = .ok f) ↔ e.2.Readable)

/-- The same for the text of an item. -/
structure RendersText (cr : Crypto) (x : Except VErr Bytes) (s : Shown) : Prop where
  correct : ∀ t, x = .ok t → s.Text cr.hashes (visible t) ∧ t = visible t
  shown : cr.Works → ((∃ t, x = .ok t) ↔ s.Readable)

theorem RendersText.item {cr : Crypto} {x : Except VErr Bytes} {s : Shown} (h : RendersText cr x s) (title : String) :
    Renders cr (do return ⟨ascii title, ← x⟩) (title, s) where
  correct f hf := by
    simp only [ebind_ok, ePure, Except.ok.injEq] at hf
    obtain ⟨t, ht, rfl⟩ := hf
    exact ⟨rfl, (h.correct t ht).1, .inl (h.correct t ht).2⟩
  shown hw := by
    rw [← h.shown hw]
    simp only [ebind_ok, ePure, Except.ok.injEq]
    exact ⟨fun ⟨_, t, ht, _⟩ => ⟨t, ht⟩, fun ⟨t, ht⟩ => ⟨_, t, ht, rfl⟩⟩

theorem renders_const {cr : Crypto} {title : String} {t : Bytes} {s : Shown} (h : s.Text cr.hashes (visible t))
    (ha : AllVisible t) (hr : s.Readable) : Renders cr (.ok ⟨ascii title, t⟩) (title, s) where
  correct f hf := by cases hf; exact ⟨rfl, h, ha⟩
  shown _ := ⟨fun _ => hr, fun _ => ⟨_, rfl⟩⟩

theorem visible_of_no_nul {t : Bytes} (h : ∀ c ∈ t, c ≠ 0) : visible t = t := by
  have := takeWhile_append_stop (p := (· != 0)) (t := t) (u := []) (by simpa using h) (fun h => absurd rfl h)
  rwa [List.append_nil] at this

theorem isDigit_no_nul {t : Bytes} (h : ∀ c ∈ t, isDigit c) : ∀ c ∈ t, c ≠ 0 := fun c hc => isDigit_ne_zero (h c hc)

theorem decimal_isDecimal (n : Nat) : IsDecimal (decimal n) n := by
  refine ⟨decimal_ne_nil n, decimal_isDigit n, ?_, textValue_decimal n⟩
  intro cs h
  by_cases h0 : n = 0
  · subst h0
    simp [decimal] at h
    exact h
  · obtain ⟨c, cs', h', hc⟩ := decimal_head n h0
    rw [h'] at h
    exact absurd (List.cons.inj h).1 hc

theorem decimal_visible (n : Nat) : visible (decimal n) = decimal n :=
  visible_of_no_nul (isDigit_no_nul (decimal_isDigit n))

theorem decimalI32_visible (x : UInt32) : visible (decimalI32 x) = decimalI32 x := by
  unfold decimalI32
  split
  · exact decimal_visible _
  · apply visible_of_no_nul
    intro c hc
    rcases List.mem_cons.mp hc with rfl | hc
    · decide
    · exact isDigit_no_nul (decimal_isDigit _) c hc

theorem decimalI32_isSigned (x : UInt32) : IsSigned (visible (decimalI32 x)) x := by
  rw [decimalI32_visible]
  unfold decimalI32
  split
  · rename_i h
    exact .inl ⟨h, decimal_isDecimal _⟩
  · rename_i h
    exact .inr ⟨by omega, _, rfl, decimal_isDecimal _⟩

theorem hexDigit_value : ∀ n < 16, hexDigitValue (hexDigit n) = some n ∧ hexDigit n ≠ 0 := by decide

theorem readHex_encode (b : Bytes) : readHex (hexEncode b) = some b := by
  induction b with
  | nil => rfl
  | cons x xs ih =>
    have h1 := (hexDigit_value (x.toNat / 16) (by have := x.toNat_lt; omega)).1
    have h2 := (hexDigit_value (x.toNat % 16) (by omega)).1
    show readHex (hexDigit (x.toNat / 16) :: hexDigit (x.toNat % 16) :: hexEncode xs) = _
    simp only [readHex, h1, h2, ih, Option.bind_eq_bind, Option.bind_some, Option.pure_def, Option.some.injEq,
      List.cons.injEq, and_true]
    rw [Nat.div_add_mod]
    exact UInt8.ofNat_toNat

theorem hex_visible (b : Bytes) : visible (hexEncode b) = hexEncode b := by
  apply visible_of_no_nul
  intro c hc
  simp only [hexEncode, List.mem_flatMap, List.mem_cons, List.not_mem_nil, or_false] at hc
  obtain ⟨x, _, rfl | rfl⟩ := hc
  · exact (hexDigit_value _ (by have := x.toNat_lt; omega)).2
  · exact (hexDigit_value _ (by omega)).2

theorem letters_eq : ascii base58Letters = base58Alphabet := by decide +kernel

theorem base58Char_letter : ∀ d < 58, (ascii base58Letters)[d]? = some (base58Char d) := by
  rw [letters_eq]; decide

theorem digitsValue_eq (b : Nat) (ds : List Nat) : digitsValue b ds = Nat.ofDigits b ds.reverse := by
  unfold digitsValue
  induction ds using List.reverseRecOn with
  | nil => rfl
  | append_singleton l x ih =>
    rw [List.foldl_append, ih]
    simp only [List.foldl_cons, List.foldl_nil, List.reverse_append, List.reverse_singleton, List.singleton_append,
      Nat.ofDigits_cons]
    rw [Nat.mul_comm, Nat.add_comm]

theorem digitsValue_bytes (l : Bytes) : digitsValue 256 (l.map UInt8.toNat) = bytesValue l := by
  unfold digitsValue bytesValue
  rw [List.foldl_map]

theorem digitsValue_zeros (b z : Nat) (l : List Nat) : digitsValue b (List.replicate z 0 ++ l) = digitsValue b l := by
  induction z with
  | zero => rfl
  | succ z ih =>
    rw [List.replicate_succ, List.cons_append, ← ih]
    simp [digitsValue]

theorem takeWhile_zeros (z : Nat) (l : List Nat) (h : ∀ hl : l ≠ [], l.head hl ≠ 0) :
    ((List.replicate z 0 ++ l).takeWhile (· == 0)).length = z := by
  induction z with
  | zero =>
    cases l with
    | nil => rfl
    | cons x xs =>
      have := h (by simp)
      simp at this
      simp [this]
  | succ z ih =>
    rw [List.replicate_succ, List.cons_append, List.takeWhile_cons_of_pos (by rfl), List.length_cons, ih]

theorem zeros_split (l : List Nat) : ∃ r, l = List.replicate (l.takeWhile (· == 0)).length 0 ++ r ∧
    ∀ h : r ≠ [], r.head h ≠ 0 := by
  induction l with
  | nil => exact ⟨[], rfl, fun h => absurd rfl h⟩
  | cons x xs ih =>
    obtain ⟨r, h1, h2⟩ := ih
    by_cases hx : x = 0
    · subst hx
      refine ⟨r, ?_, h2⟩
      simp only [List.takeWhile_cons, beq_self_eq_true, if_true, List.length_cons, List.replicate_succ,
        List.cons_append]
      rw [← h1]
    · exact ⟨x :: xs, by simp [hx], fun _ => by simpa using hx⟩

/-- The text made by the app is the base58 form. -/
theorem base58_isBase58 (b : Bytes) : IsBase58 (base58 b) b := by
  refine ⟨List.replicate (b.takeWhile (· == 0)).length 0 ++ (Nat.digits 58 (bytesValue b)).reverse, ?_, ?_, ?_⟩
  · rw [base58_eq]
    simp only [List.map_append, List.map_replicate, List.map_map]
    congr 1
    apply List.map_congr_left
    intro d hd
    rw [List.mem_reverse] at hd
    exact (base58Char_letter d (Nat.digits_lt_base (by omega) hd)).symm
  · rw [digitsValue_zeros, digitsValue_eq, List.reverse_reverse, Nat.ofDigits_digits, digitsValue_bytes]
  · apply takeWhile_zeros
    intro hl h0
    have hne : Nat.digits 58 (bytesValue b) ≠ [] := by simpa using hl
    have hv : bytesValue b ≠ 0 := Nat.digits_ne_nil_iff_ne_zero.mp hne
    rw [List.head_reverse] at h0
    exact Nat.getLast_digit_ne_zero 58 hv h0

/-- There is no other. -/
theorem IsBase58.unique {t b : Bytes} (h : IsBase58 t b) : t = base58 b := by
  obtain ⟨ds, h1, h2, h3⟩ := h
  have hd : ∀ d ∈ ds, d < 58 := by
    intro d hd
    have : (ascii base58Letters)[d]? ∈ t.map some := by
      rw [h1]; exact List.mem_map.mpr ⟨d, hd, rfl⟩
    obtain ⟨_, _, hc⟩ := List.mem_map.mp this
    obtain ⟨hlt, -⟩ := List.getElem?_eq_some_iff.mp hc.symm
    have hl : (ascii base58Letters).length = 58 := by rw [letters_eq]; rfl
    omega
  have ht : t = ds.map base58Char := by
    have : t.map some = (ds.map base58Char).map some := by
      rw [h1, List.map_map]
      exact List.map_congr_left fun d h => base58Char_letter d (hd d h)
    exact List.map_injective_iff.mpr (Option.some_injective _) this
  obtain ⟨r, hr, hr0⟩ := zeros_split ds
  rw [h3] at hr
  have hv : Nat.digits 58 (bytesValue b) = r.reverse := by
    rw [← digitsValue_bytes, ← h2, hr, digitsValue_zeros, digitsValue_eq]
    refine Nat.digits_ofDigits 58 (by omega) _ ?_ ?_
    · intro d h
      exact hd d (by rw [hr]; simp [List.mem_reverse.mp h])
    · intro h
      rw [List.getLast_reverse]
      exact hr0 (by simpa using h)
  rw [ht, base58_eq, hv, List.reverse_reverse, hr, List.map_append, List.map_replicate]
  rfl

theorem base58_visible (b : Bytes) : visible (base58 b) = base58 b :=
  visible_of_no_nul fun _ hc h0 => base58_no_nul b (h0 ▸ hc)

/-- Base58Check texts, whatever the size of the buffer. -/
theorem rendersText_checked {cr : Crypto} {cap : Nat} {pfx payload : Bytes} {s : Shown}
    (hs : ∀ t, IsBase58Check cr.hashes pfx payload t → s.Text cr.hashes t) (hr : s.Readable)
    (hfit : ∀ b : Bytes, b.length = pfx.length + payload.length + 4 → base58Into cap b = .ok (base58 b)) :
    RendersText cr (do let b ← orUnknown (checked cr pfx payload); base58Into cap b) s where
  correct t ht := by
    simp only [ebind_ok, orUnknown_ok, base58Into_ok] at ht
    obtain ⟨b, hb, -, rfl⟩ := ht
    rw [base58_visible]
    refine ⟨?_, rfl⟩
    apply hs
    obtain ⟨sum, h1, rfl⟩ := checked_some.mp hb
    unfold sha256x2 at h1
    simp only [Option.bind_eq_bind, Option.bind_eq_some_iff, Option.pure_def, Option.some.injEq,
      List.flatten_cons, List.flatten_nil, List.append_nil] at h1
    obtain ⟨d1, h1, d2, h2, rfl⟩ := h1
    exact ⟨d1, d2, h1, h2, base58_isBase58 _⟩
  shown hw := by
    refine ⟨fun _ => hr, fun _ => ?_⟩
    obtain ⟨d1, h1⟩ := Option.isSome_iff_exists.mp (hw.sha256 (pfx ++ payload))
    obtain ⟨d2, h2⟩ := Option.isSome_iff_exists.mp (hw.sha256 d1)
    have hc : checked cr pfx payload = some (pfx ++ payload ++ d2.take 4) := by
      simp [checked, sha256x2, h1, h2]
    have hl : (pfx ++ payload ++ d2.take 4).length = pfx.length + payload.length + 4 := by
      simp [hw.sized.sha256 h2, Nat.add_assoc]
    exact ⟨_, by rw [hc]; simp only [orUnknown, ebind_ok_left]; exact hfit _ hl⟩

theorem hashPrefix_spec (k : KeyKind) : (KeyKind.curve k).hashPrefix = k.addressPrefix := by cases k <;> rfl
theorem keyPrefix_spec (k : KeyKind) : (KeyKind.curve k).keyPrefix = k.keyPrefix := by cases k <;> rfl

theorem pkhText_eq (cr : Crypto) (p : Pkh) :
    pkhText cr p = (do let b ← orUnknown (checked cr p.curve.hashPrefix p.hash); base58Into 37 b) := by
  unfold pkhText Addr.fromHash Addr.base58
  cases checked cr p.curve.hashPrefix p.hash <;> rfl

theorem rendersText_pkh {cr : Crypto} {a : Account} {s : Shown} (ha : a.Valid)
    (hs : ∀ t, IsAddress cr.hashes a t → s.Text cr.hashes t) (hr : s.Readable) :
    RendersText cr (pkhText cr (Pkh.ofSpec a)) s := by
  rw [pkhText_eq]
  refine rendersText_checked (fun t ht => hs t ?_) hr fun b hb => base58_fits_address ?_
  · simp only [Pkh.ofSpec, hashPrefix_spec] at ht
    exact ht
  · rw [hb, hashPrefix_length]
    have : a.hash.length = 20 := ha
    simp [Pkh.ofSpec, this]

theorem rendersText_account {cr : Crypto} {a : Account} (ha : a.Valid) :
    RendersText cr (pkhText cr (Pkh.ofSpec a)) (.account a) := rendersText_pkh ha (fun _ h => h) trivial

theorem rendersText_num {cr : Crypto} (n : Nat) : RendersText cr (numText (.ofSpec n)) (.number n) where
  correct t ht := by
    unfold numText at ht
    simp only [ebind_ok, ePure, Except.ok.injEq] at ht
    obtain ⟨v, hv, rfl⟩ := ht
    obtain ⟨hv, -⟩ := numValue_ok (Zarith.ofSpec_wf n).2 hv
    rw [Zarith.ofSpec, zarithValue_encode] at hv
    rw [decimal_visible, hv]
    exact ⟨decimal_isDecimal n, rfl⟩
  shown _ := by
    unfold numText numValue
    constructor
    · rintro ⟨t, ht⟩
      by_contra h
      rw [Zarith.ofSpec, C33_five_bytes_refused (Nat.le_of_not_lt h)] at ht
      cases ht
    · intro h
      rw [Zarith.ofSpec, C33_canonical_read h]
      exact ⟨_, rfl⟩

theorem rendersText_tez {cr : Crypto} (n : Nat) : RendersText cr (fpText (.ofSpec n)) (.tez n) where
  correct t ht := by
    unfold fpText at ht
    simp only [ebind_ok] at ht
    obtain ⟨v, hv, ht⟩ := ht
    obtain ⟨hv, hlt⟩ := numValue_ok (Zarith.ofSpec_wf n).2 hv
    rw [Zarith.ofSpec, zarithValue_encode] at hv
    subst hv
    obtain ⟨t', h1, h2⟩ := C35_amount v hlt
    rw [h1] at ht
    cases ht
    rw [visible_of_no_nul]
    · exact ⟨h2, rfl⟩
    · obtain ⟨i, f, rfl, -, hi, hf, -⟩ := h2
      intro c hc
      rcases List.mem_append.mp hc with hc | hc
      · exact isDigit_ne_zero (hi c hc)
      · rcases List.mem_cons.mp hc with rfl | hc
        · decide
        · exact isDigit_ne_zero (hf c hc)
  shown _ := by
    unfold fpText numValue
    constructor
    · rintro ⟨t, ht⟩
      by_contra h
      rw [Zarith.ofSpec, C33_five_bytes_refused (Nat.le_of_not_lt h)] at ht
      cases ht
    · intro h
      obtain ⟨t, h1, -⟩ := C35_amount n (by have : n < 2 ^ 28 := h; omega)
      rw [Zarith.ofSpec, C33_canonical_read h]
      exact ⟨t, h1⟩

theorem rendersText_michelson {cr : Crypto} (d : Bytes) : RendersText cr (michelsonText cr d) (.digestOf d) where
  correct t ht := by
    unfold michelsonText at ht
    simp only [ebind_ok, orUnknown_ok, ePure, Except.ok.injEq] at ht
    obtain ⟨x, hx, rfl⟩ := ht
    rw [hex_visible]
    exact ⟨⟨x, hx, readHex_encode x⟩, rfl⟩
  shown hw := by
    obtain ⟨x, hx⟩ := Option.isSome_iff_exists.mp (hw.sha256 d)
    refine ⟨fun _ => trivial, fun _ => ⟨hexEncode x, ?_⟩⟩
    simp [michelsonText, hx, orUnknown]

theorem rendersText_branch {cr : Crypto} {b : Bytes} (hb : b.length = 32) :
    RendersText cr (branchText cr b) (.block b) :=
  rendersText_checked (fun _ h => h) trivial fun _ hl => base58_fits_hash (by rw [hl, hb]; rfl)

theorem rendersText_proposal {cr : Crypto} {b : Bytes} (hb : b.length = 32) :
    RendersText cr (proposalText cr b) (.proposal b) :=
  rendersText_checked (fun _ h => h) trivial fun _ hl => base58_fits_hash (by rw [hl, hb]; rfl)

theorem rendersText_key {cr : Crypto} {k : KeyKind} {key : Bytes} (hk : key.length = k.keyLength) :
    RendersText cr (keyText cr (KeyKind.curve k) key) (.key k key) := by
  unfold keyText
  rw [keyPrefix_spec]
  refine rendersText_checked (fun _ h => h) trivial fun b hl => ?_
  cases k
  · exact base58_fits_key32 (by rw [hl, hk]; rfl)
  · exact base58_fits_key33 (by rw [hl, hk]; rfl)
  · exact base58_fits_key33 (by rw [hl, hk]; rfl)

theorem rendersText_unknown {cr : Crypto} (data : Bytes) : RendersText cr (unknownText cr data) (.opaque data) where
  correct t ht := by
    unfold unknownText sha256x2 at ht
    simp only [ebind_ok, orUnknown_ok, base58Into_ok, Option.bind_eq_bind, Option.bind_eq_some_iff, Option.pure_def,
      Option.some.injEq, List.flatten_cons, List.flatten_nil, List.append_nil] at ht
    obtain ⟨d, hd, sum, ⟨d1, h1, d2, h2, rfl⟩, -, rfl⟩ := ht
    rw [base58_visible]
    exact ⟨⟨d, hd, d1, d2, h1, h2, base58_isBase58 _⟩, rfl⟩
  shown hw := by
    obtain ⟨d, hd⟩ := Option.isSome_iff_exists.mp (hw.blake2b data)
    obtain ⟨d1, h1⟩ := Option.isSome_iff_exists.mp (hw.sha256 d)
    obtain ⟨d2, h2⟩ := Option.isSome_iff_exists.mp (hw.sha256 d1)
    refine ⟨fun _ => trivial, fun _ => ⟨base58 (d ++ d2.take 4), ?_⟩⟩
    have : sha256x2 cr [d] = some (d2.take 4) := by simp [sha256x2, h1, h2]
    simp only [unknownText, hd, orUnknown, ebind_ok_left, this]
    refine base58_fits_unknown ?_
    simp [hw.sized.blake2b hd, hw.sized.sha256 h2]

theorem rendersText_destination {cr : Crypto} {d : Destination} (hd : d.Valid) :
    RendersText cr ((ContractID.ofSpec d).text cr) (match d with | .account a => .account a | .contract h => .contract h) := by
  cases d with
  | account a =>
    refine rendersText_checked (fun t ht => ?_) trivial fun b hb => base58_fits_address ?_
    · simp only [Pkh.ofSpec, hashPrefix_spec] at ht
      exact ht
    · have : a.hash.length = 20 := hd
      rw [hb, hashPrefix_length]
      simp [Pkh.ofSpec, this]
  | contract h =>
    have : h.length = 20 := hd
    exact rendersText_checked (fun _ h => h) trivial fun b hb => base58_fits_address (by rw [hb, this]; rfl)

theorem names_no_nul : ∀ b ∈ knownBakers, ∀ c ∈ b.name, c ≠ 0 := by decide +kernel

theorem renders_baker {cr : Crypto} {m : Manager} {a : Account} (ha : a.Valid) :
    Renders cr (Delegation.item cr ⟨m, some (Pkh.ofSpec a)⟩ 2) ("Delegation", .baker a) := by
  unfold Delegation.item
  have hl := C56_lookup (Pkh.ofSpec a).curve.hashPrefix (Pkh.ofSpec a).hash
  simp only [Pkh.ofSpec, hashPrefix_spec] at hl ⊢
  split
  · rename_i name h
    obtain ⟨b, hb, h1, h2, h3⟩ := hl.1 _ h
    have hv := visible_of_no_nul (names_no_nul b hb)
    rw [h3] at hv
    exact renders_const (.inl ⟨b, hb, h1, h2, by rw [hv, h3]⟩) (.inl hv.symm) trivial
  · rename_i h
    exact (rendersText_pkh (s := .baker a) ha (fun t ht => Or.inr ⟨hl.2 h, ht⟩) trivial).item _

/-! ### Operations -/

theorem Op.uiItems_review (o : Operation) : (Op.ofSpec o).uiItems = o.review.length := by
  cases o <;> simp [Op.ofSpec, Op.uiItems, Operation.review]
  omega

set_option maxRecDepth 100000 in
theorem proposal_title : ∀ k < 256, ascii s!"Proposal #{k + 1}" = ascii "Proposal #" ++ decimal (k + 1) := by
  decide +kernel

theorem renders_words {cr : Crypto} {title s : String} (h : visible (cstr s) = ascii s) :
    Renders cr (.ok ⟨ascii title, cstr s⟩) (title, .words s) :=
  renders_const h (.inr (by rw [h]; rfl)) trivial

theorem renders_signed {cr : Crypto} {title : String} {x : UInt32} :
    Renders cr (.ok ⟨ascii title, decimalI32 x⟩) (title, .signed x) :=
  renders_const (decimalI32_isSigned x) (.inl (decimalI32_visible x).symm) trivial

/-- **C57**, one operation: every item has the title it must have and says what it must. -/
theorem C57_operation_items (cr : Crypto) (o : Operation) (hv : o.Valid) (hn : o.review.length < 256) (k : Nat)
    (e : String × Shown) (he : o.review[k]? = some e) : Renders cr ((Op.ofSpec o).item cr k) e := by
  obtain ⟨hk, rfl⟩ := List.getElem?_eq_some_iff.mp he
  cases o with
  | seedNonceRevelation l n => simp [Operation.review] at hk
  | doubleEndorsement e1 e2 s => simp [Operation.review] at hk
  | doubleBaking h1 h2 => simp [Operation.review] at hk
  | endorsement l =>
    match k, hk with
    | 0, _ => exact renders_words rfl
    | 1, _ => exact renders_signed
  | activateAccount h s =>
    match k, hk with
    | 0, _ => exact renders_words rfl
    | 1, _ => exact (rendersText_account (a := ⟨.ed25519, h⟩) hv.1).item _
    | 2, _ => exact renders_const (by rw [hex_visible]; exact readHex_encode s) (.inl (hex_visible s).symm) trivial
  | proposals s p ps =>
    match k, hk with
    | 0, _ => exact renders_words rfl
    | 1, _ => exact (rendersText_account hv.1).item _
    | 2, _ => exact renders_signed
    | k + 3, hk =>
      have hlt : k < ps.length := by simp [Operation.review] at hk; omega
      have hlen : ps.length < 253 := by simp [Operation.review] at hn; omega
      have hr := (rendersText_proposal (cr := cr) (hv.2.1 ps[k] (List.getElem_mem hlt))).item s!"Proposal #{k + 1}"
      rw [proposal_title k (by omega)] at hr
      have hitem : (Op.ofSpec (.proposals s p ps)).item cr (k + 3) =
          (do return ⟨ascii "Proposal #" ++ decimal (k + 1), ← proposalText cr ps[k]⟩) := by
        simp only [Op.ofSpec, Op.item, Proposals.item]
        rw [if_pos (by omega), List.getElem?_eq_getElem hlt]
      rw [hitem]
      simpa [Operation.review] using hr
  | ballot s p h v =>
    match k, hk with
    | 0, _ => exact renders_words rfl
    | 1, _ => exact (rendersText_account hv.1).item _
    | 2, _ => exact renders_signed
    | 3, _ => exact (rendersText_proposal hv.2).item _
    | 4, _ => cases v <;> exact renders_words rfl
  | endorsementWithSlot e s =>
    match k, hk with
    | 0, _ => exact renders_words rfl
    | 1, _ => exact (rendersText_branch hv.1).item _
    | 2, _ =>
      refine renders_const (by rw [decimal_visible]; exact decimal_isDecimal _) (.inl (decimal_visible _).symm) ?_
      have := s.toNat_lt
      show s.toNat < 2 ^ 28
      omega
    | 3, _ => exact renders_words rfl
    | 4, _ => exact renders_signed
  | failingNoop d =>
    match k, hk with
    | 0, _ => exact renders_words rfl
    | 1, _ => exact (rendersText_michelson d).item _
  | reveal m kind key =>
    match k, hk with
    | 0, _ => exact renders_words rfl
    | 1, _ => exact (rendersText_account hv.1).item _
    | 2, _ => exact (rendersText_key hv.2).item _
    | 3, _ => exact (rendersText_tez _).item _
    | 4, _ => exact (rendersText_num _).item _
    | 5, _ => exact (rendersText_num _).item _
    | 6, _ => exact (rendersText_num _).item _
  | transfer m a d c =>
    match k, hk with
    | 0, _ => cases c <;> exact renders_words rfl
    | 1, _ => exact (rendersText_account hv.1).item _
    | 2, _ =>
      have h := rendersText_destination (cr := cr) hv.2.1
      cases d with
      | account a => exact h.item "Destination"
      | contract x => exact h.item "Contract Addr"
    | 3, _ => exact (rendersText_tez _).item _
    | 4, _ => exact (rendersText_tez _).item _
    | 5, _ =>
      cases c with
      | none => exact renders_words rfl
      | some c => exact (rendersText_michelson _).item _
    | 6, _ => exact (rendersText_num _).item _
    | 7, _ => exact (rendersText_num _).item _
    | 8, _ => exact (rendersText_num _).item _
  | origination m b d code storage =>
    match k, hk with
    | 0, _ => exact renders_words rfl
    | 1, _ => exact (rendersText_account hv.1).item _
    | 2, _ => exact (rendersText_tez _).item _
    | 3, _ =>
      cases d with
      | none => exact renders_words rfl
      | some d => exact (rendersText_account hv.2.1).item _
    | 4, _ => exact (rendersText_tez _).item _
    | 5, _ => exact (rendersText_michelson _).item _
    | 6, _ => exact (rendersText_michelson _).item _
    | 7, _ => exact (rendersText_num _).item _
    | 8, _ => exact (rendersText_num _).item _
    | 9, _ => exact (rendersText_num _).item _
  | delegation m d =>
    match k, hk with
    | 0, _ => cases d <;> exact renders_words rfl
    | 1, _ => exact (rendersText_account hv.1).item _
    | 2, _ =>
      cases d with
      | none => exact renders_words rfl
      | some d =>
        show Renders cr (Delegation.item cr ⟨Manager.ofSpec m, some (Pkh.ofSpec d)⟩ 2) ("Delegation", .baker d)
        exact renders_baker hv.2
    | 3, _ => exact (rendersText_tez _).item _
    | 4, _ => exact (rendersText_num _).item _
    | 5, _ => exact (rendersText_num _).item _
    | 6, _ => exact (rendersText_num _).item _

/-! ### Batches -/

/-- What is found in bytes that are opaque. -/
def opaqueOps : Bytes → List Op
  | [] => []
  | _ :: data => [.unknown data]

theorem fromBytes_opaque {t : UInt8} {r : Bytes} (h : IsOpaque (t :: r)) :
    Op.fromBytes (t :: r) = .ok ([], .unknown r) := by
  have ht : t ∉ knownTags := by
    intro hm
    apply h t r rfl
    simp only [knownTags, List.mem_cons, List.not_mem_nil, or_false] at hm
    rcases hm with rfl | rfl | rfl | rfl | rfl | rfl | rfl | rfl | rfl | rfl | rfl | rfl | rfl <;> decide
  exact Op.fromBytes_ok_unknown.mpr ⟨rfl, t, ht, rfl⟩

theorem parseOps_opaque {rest : Bytes} (h : IsOpaque rest) : parseOps rest = .ok (opaqueOps rest) := by
  cases rest with
  | nil => rfl
  | cons t r =>
    rw [parseOps_cons (fromBytes_opaque h)]
    rfl

theorem parseOps_batch (os : List Operation) (hv : ∀ o ∈ os, o.Valid) (rest : Bytes) (h : IsOpaque rest) :
    parseOps (os.flatMap Operation.encode ++ rest) = .ok (os.map Op.ofSpec ++ opaqueOps rest) := by
  induction os with
  | nil => exact parseOps_opaque h
  | cons o os ih =>
    rw [List.flatMap_cons, List.append_assoc, parseOps_cons (C31_decode_encode o (hv o (by simp)) _),
      ih (fun o ho => hv o (by simp [ho]))]
    rfl

/-- Operations paired with one entry for each of their items: the entries in order belong to the items in order. -/
theorem allFields_paired {β : Type} (l : List (Op × List β)) (h : ∀ x ∈ l, x.2.length = x.1.uiItems) (n : Nat) (b : β)
    (hb : (l.flatMap Prod.snd)[n]? = some b) :
    ∃ x ∈ l, ∃ k, (allFields (l.map Prod.fst))[n]? = some (x.1, k) ∧ x.2[k]? = some b := by
  induction l generalizing n with
  | nil => simp at hb
  | cons x l ih =>
    have hx := h x (by simp)
    rw [List.flatMap_cons, List.getElem?_append] at hb
    have hf : allFields ((x :: l).map Prod.fst) =
        ((List.range x.1.uiItems).map fun k => (x.1, k)) ++ allFields (l.map Prod.fst) := by
      simp [allFields]
    rw [hf, List.getElem?_append]
    simp only [List.length_map, List.length_range]
    split at hb
    · rename_i hlt
      refine ⟨x, by simp, n, ?_, hb⟩
      rw [if_pos (by omega)]
      simp [hx ▸ hlt]
    · rename_i hlt
      obtain ⟨y, hy, k, h1, h2⟩ := ih (fun y hy => h y (by simp [hy])) _ hb
      refine ⟨y, by simp [hy], k, ?_, h2⟩
      rw [if_neg (by omega), ← hx]
      exact h1

/-- The items of opaque bytes. -/
theorem renders_opaque (cr : Crypto) (data : Bytes) (k : Nat) (e : String × Shown)
    (he : (opaqueReview (0 :: data))[k]? = some e) : Renders cr (unknownItem cr data k) e := by
  obtain ⟨hk, rfl⟩ := List.getElem?_eq_some_iff.mp he
  match k, hk with
  | 0, _ => exact renders_words rfl
  | 1, _ => exact (rendersText_unknown data).item _

/-- **C57.** The review of a message made of a branch, any valid operations, and possibly bytes of an operation the app
does not know, as long as it has at most 255 items: it announces as many items as it must have, and every item has the
title it must have and says what it must. Unless a hash function fails every item is displayed, except numbers of
`2 ^ 28` and more. -/
theorem C57_review (cr : Crypto) (branch : Bytes) (hb : branch.length = 32) (os : List Operation)
    (hv : ∀ o ∈ os, o.Valid) (rest : Bytes) (hr : IsOpaque rest) (hn : (batchReview branch os rest).length < 256) :
    numItemsOps (os.flatMap Operation.encode ++ rest) = .ok (UInt8.ofNat (batchReview branch os rest).length) ∧
    ∀ n e, (batchReview branch os rest)[n]? = some e →
      Renders cr (signOpItem cr branch (os.flatMap Operation.encode ++ rest) (UInt8.ofNat n)) e := by
  have hp := parseOps_batch os hv rest hr
  have hlen : (batchReview branch os rest).length = totalItems (os.map Op.ofSpec ++ opaqueOps rest) := by
    have h1 : (os.flatMap Operation.review).length = ((os.map Op.ofSpec).map Op.uiItems).sum := by
      rw [List.length_flatMap, List.map_map]
      congr 1
      exact List.map_congr_left fun o _ => (Op.uiItems_review o).symm
    have h2 : (opaqueReview rest).length = ((opaqueOps rest).map Op.uiItems).sum := by cases rest <;> rfl
    simp only [batchReview, totalItems, List.length_cons, List.length_append, List.map_append, List.sum_append, h1, h2]
    omega
  refine ⟨by rw [numItemsOps, hp, hlen]; rfl, ?_⟩
  intro n e he
  obtain ⟨h0, hpos⟩ := C39_item_order cr branch _ _ hp (by rw [← hlen]; exact hn)
  cases n with
  | zero =>
    cases he
    have := (rendersText_branch (cr := cr) hb).item "Operation"
    rw [← h0] at this
    exact this
  | succ n =>
    have hlt := (List.getElem?_eq_some_iff.mp he).1
    have hto : (UInt8.ofNat (n + 1)).toNat = n + 1 := by simp only [UInt8.toNat_ofNat']; omega
    rw [hpos _ (by intro h; rw [h] at hto; simp at hto), hto, Nat.add_sub_cancel]
    rw [batchReview, List.getElem?_cons_succ] at he
    let l : List (Op × List (String × Shown)) :=
      os.map (fun o => (Op.ofSpec o, o.review)) ++ (opaqueOps rest).map (fun o => (o, opaqueReview rest))
    have hl1 : l.map Prod.fst = os.map Op.ofSpec ++ opaqueOps rest := by
      simp [l, List.map_map, Function.comp_def]
    have hl2 : l.flatMap Prod.snd = os.flatMap Operation.review ++ opaqueReview rest := by
      simp only [l, List.flatMap_append, List.flatMap_map]
      congr 1
      cases rest <;> simp [opaqueOps, opaqueReview]
    have hl3 : ∀ x ∈ l, x.2.length = x.1.uiItems := by
      intro x hx
      simp only [l, List.mem_append, List.mem_map] at hx
      rcases hx with ⟨o, -, rfl⟩ | ⟨o, ho, rfl⟩
      · exact (Op.uiItems_review o).symm
      · cases rest with
        | nil => cases ho
        | cons t r =>
          rw [opaqueOps, List.mem_singleton] at ho
          subst ho
          rfl
    rw [← hl2] at he
    obtain ⟨x, hx, k, hf, hk⟩ := allFields_paired l hl3 n e he
    rw [hl1] at hf
    rw [hf]
    simp only [l, List.mem_append, List.mem_map] at hx
    rcases hx with ⟨o, ho, rfl⟩ | ⟨o, ho, rfl⟩
    · refine C57_operation_items cr o (hv o ho) ?_ k e hk
      have : o.review.length ≤ (os.flatMap Operation.review).length := by
        rw [List.length_flatMap]
        exact mem_sum_le (List.mem_map_of_mem ho)
      simp only [batchReview, List.length_cons, List.length_append] at hn
      omega
    · cases rest with
      | nil => cases ho
      | cons t r =>
        rw [opaqueOps, List.mem_singleton] at ho
        subst ho
        exact renders_opaque cr r k e hk

/-- A batch that meets the hypotheses: a transfer with a call, a ballot, and an operation the app does not know. -/
example : (∀ o ∈ [demoTransfer, demoBallot], o.Valid) ∧ IsOpaque [0x70, 1, 2] ∧
    (batchReview (List.replicate 32 1) [demoTransfer, demoBallot] [0x70, 1, 2]).length = 17 ∧
    (batchReview (List.replicate 32 1) [demoTransfer, demoBallot] [0x70, 1, 2])[4]? =
      some ("Amount", .tez 1500000) := by
  refine ⟨?_, ?_, rfl, rfl⟩
  · intro o ho
    rcases List.mem_cons.mp ho with rfl | ho
    · simp [demoTransfer, Operation.Valid, Account.Valid, Destination.Valid, validOption, Call.Valid, Entry.Valid]
    · rw [List.mem_singleton.mp ho]
      exact demoBallot_valid
  · intro t r h
    rw [← (List.cons.inj h).1]
    decide

/-- Its amount is shown as 1.500000. -/
example : (signOpItem zeroCrypto (List.replicate 32 1) (demoTransfer.encode ++ demoBallot.encode ++ [0x70, 1, 2])
    4).toOption = some ⟨ascii "Amount", ascii "1.500000"⟩ := by decide +kernel

end Tezos
