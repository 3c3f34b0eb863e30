import Verif.BakingParser
import Verif.Spec.Consensus
/-
The decision part of automatic signing (rust/app/src/handlers/baking.rs 192-287) and its exact relation
to the offset-based specification.
-/
namespace Tezos

/-- Error of a handler: an `ApduError` returned with `Err`, or a Rust panic. -/
inductive HErr where
  | err (e : ApduError)
  | panic
  deriving DecidableEq, Repr

/-- rust/app/src/handlers/baking.rs 199-226: the part of `handle_endorsement` between reading and
writing the watermark; the value is the watermark to write. -/
def endorsementDecide (p : Preamble) (rem : Bytes) (hw : WaterMark) : Except HErr WaterMark :=
  match EndorsementData.parse rem with
  | .error .panic => .error .panic
  | .error .err => .error (.err .dataInvalid)
  | .ok (_, e) =>
    let kindOk : Bool := match p, e with
      | .tenderbakeEndorsement, .tenderbake t => t.ty == .endorsement
      | .tenderbakePreendorsement, .tenderbake t => t.ty == .preendorsement
      | .endorsement, .emmy _ => true
      | _, _ => false
    if kindOk then
      if e.validate hw then .ok e.deriveWatermark else .error (.err .dataInvalid)
    else .error (.err .dataInvalid)

/-- rust/app/src/handlers/baking.rs 255-270: the same part of `handle_blockdata`. -/
def blockDecide (p : Preamble) (rem : Bytes) (hw : WaterMark) : Except HErr WaterMark :=
  match BlockData.parse rem with
  | .error .panic => .error .panic
  | .error .err => .error (.err .dataInvalid)
  | .ok (_, b) =>
    let kindOk : Bool := match p, b.fitness with
      | .block, .emmy _ => true
      | .tenderbakeBlock, .tenderbake _ => true
      | _, _ => false
    if kindOk then
      if b.validate hw then .ok b.deriveWatermark else .error (.err .dataInvalid)
    else .error (.err .dataInvalid)

/-- The item a stored watermark stands for: the highest one it forbids to sign again. -/
def WaterMark.item : WaterMark → Spec.Item
  | .emmy l e => ⟨0, l.toNat, 0, if e then 2 else 0⟩
  | .tenderbake l e r p => ⟨1, l.toNat, r.toNat, if e then 2 else if p then 1 else 0⟩

/-! ### Forward evaluation of parsers on suffixes -/

theorem nTake_drop {i : Bytes} {o n : Nat} (h : o + n ≤ i.length) :
    nTake n (i.drop o) = .ok (i.drop (o + n), slice i o n) := by
  unfold nTake slice
  rw [if_pos (by simp; omega), List.drop_drop]

theorem nBeU32_drop {i : Bytes} {o : Nat} (h : o + 4 ≤ i.length) :
    nBeU32 (i.drop o) = .ok (i.drop (o + 4), u32OfBe (slice i o 4)) := by
  unfold nBeU32; rw [nTake_drop h]; rfl

theorem nBeU16_drop {i : Bytes} {o : Nat} (h : o + 2 ≤ i.length) :
    nBeU16 (i.drop o) = .ok (i.drop (o + 2), u16OfBe (slice i o 2)) := by
  unfold nBeU16; rw [nTake_drop h]; rfl

theorem nBeU64_drop {i : Bytes} {o : Nat} (h : o + 8 ≤ i.length) :
    nBeU64 (i.drop o) = .ok (i.drop (o + 8), u64OfBe (slice i o 8)) := by
  unfold nBeU64; rw [nTake_drop h]; rfl

theorem nU8_drop {i : Bytes} {o : Nat} (h : o < i.length) :
    nU8 (i.drop o) = .ok (i.drop (o + 1), i[o]) := by
  rw [List.drop_eq_getElem_cons h]; rfl

theorem nTag1_drop {i : Bytes} {o : Nat} {t : UInt8} (h : i[o]? = some t) :
    nTag1 t (i.drop o) = .ok (i.drop (o + 1), t) := by
  obtain ⟨h1, h2⟩ := List.getElem?_eq_some_iff.mp h
  rw [List.drop_eq_getElem_cons h1, h2]
  simp

theorem nTag1_drop_ne {i : Bytes} {o : Nat} {t : UInt8} (h : i[o]? ≠ some t) :
    nTag1 t (i.drop o) = .error .err := by
  rw [nTag1_error]
  refine ⟨rfl, fun r hr => h ?_⟩
  have : (i.drop o)[0]? = some t := by rw [hr]; rfl
  simpa using this

theorem nTake_drop_short {i : Bytes} {o n : Nat} (h : i.length < o + n) (hn : 0 < n) :
    nTake n (i.drop o) = .error .err := by
  rw [nTake_error]; simp; omega

theorem nBeU32_drop_short {i : Bytes} {o : Nat} (h : i.length < o + 4) :
    nBeU32 (i.drop o) = .error .err := by
  rw [nBeU32_error]; simp; omega

theorem nBeU16_drop_short {i : Bytes} {o : Nat} (h : i.length < o + 2) :
    nBeU16 (i.drop o) = .error .err := by
  rw [nBeU16_error]; simp; omega

theorem nBeU64_drop_short {i : Bytes} {o : Nat} (h : i.length < o + 8) :
    nBeU64 (i.drop o) = .error .err := by
  rw [nBeU64_error]; simp; omega

theorem nU8_drop_short {i : Bytes} {o : Nat} (h : i.length ≤ o) :
    nU8 (i.drop o) = .error .err := by
  rw [nU8_error]; simp; omega

/-! ### Closed forms of the consensus parsers -/

theorem EmmyEndorsement.parse_eq (i : Bytes) :
    EmmyEndorsement.parse i =
      if 41 ≤ i.length ∧ i[36]? = some 0 then
        .ok (i.drop 41, ⟨u32OfBe (slice i 0 4), slice i 4 32, u32OfBe (slice i 37 4)⟩)
      else .error .err := by
  unfold EmmyEndorsement.parse
  rw [← List.drop_zero (l := i)]
  by_cases h1 : 4 ≤ i.length
  · rw [nBeU32_drop (by omega)]
    simp only [ebind_ok_left]
    by_cases h2 : 36 ≤ i.length
    · rw [nTake_drop (by omega)]
      simp only [ebind_ok_left]
      by_cases h3 : i[36]? = some 0
      · rw [nTag1_drop (by simpa using h3)]
        simp only [ebind_ok_left]
        by_cases h4 : 41 ≤ i.length
        · rw [nBeU32_drop (by omega)]
          simp [h3, h4]
        · rw [nBeU32_drop_short (by omega)]
          simp [h4]
      · rw [nTag1_drop_ne (by simpa using h3)]
        simp [h3]
    · rw [nTake_drop_short (by omega) (by omega)]
      simp; omega
  · rw [nBeU32_drop_short (by omega)]
    simp; omega

theorem TenderbakeEndorsement.parse_eq (i : Bytes) :
    TenderbakeEndorsement.parse i =
      match i[36]? with
      | none => .error .err
      | some t =>
        match EndorsementType.ofTag t with
        | none => .error .err
        | some ty =>
          if 79 ≤ i.length then
            .ok (i.drop 79, ⟨u32OfBe (slice i 0 4), slice i 4 32, ty, u16OfBe (slice i 37 2),
              u32OfBe (slice i 39 4), u32OfBe (slice i 43 4), slice i 47 32⟩)
          else .error .err := by
  unfold TenderbakeEndorsement.parse
  rw [← List.drop_zero (l := i)]
  by_cases h0 : 36 < i.length
  · rw [nBeU32_drop (by omega)]
    simp only [ebind_ok_left]
    rw [nTake_drop (by omega)]
    simp only [ebind_ok_left]
    rw [nU8_drop (by omega)]
    simp only [ebind_ok_left, List.drop_zero, List.getElem?_eq_getElem h0, Nat.zero_add]
    cases EndorsementType.ofTag i[36] with
    | none => rfl
    | some ty =>
      simp only
      by_cases h1 : 39 ≤ i.length
      · rw [nBeU16_drop (by omega)]
        simp only [ebind_ok_left]
        by_cases h2 : 43 ≤ i.length
        · rw [nBeU32_drop (by omega)]
          simp only [ebind_ok_left]
          by_cases h3 : 47 ≤ i.length
          · rw [nBeU32_drop (by omega)]
            simp only [ebind_ok_left]
            by_cases h4 : 79 ≤ i.length
            · rw [nTake_drop (by omega)]
              simp [h4]
            · rw [nTake_drop_short (by omega) (by omega)]
              simp [h4]
          · rw [nBeU32_drop_short (by omega)]
            simp; omega
        · rw [nBeU32_drop_short (by omega)]
          simp; omega
      · rw [nBeU16_drop_short (by omega)]
        simp; omega
  · have hn : i[36]? = none := by simp; omega
    simp only [List.drop_zero, hn]
    rw [← List.drop_zero (l := i)]
    by_cases h1 : 4 ≤ i.length
    · rw [nBeU32_drop (by omega)]
      simp only [ebind_ok_left]
      by_cases h2 : 36 ≤ i.length
      · rw [nTake_drop (by omega)]
        simp only [ebind_ok_left]
        rw [nU8_drop_short (by omega)]
        rfl
      · rw [nTake_drop_short (by omega) (by omega)]
        rfl
    · rw [nBeU32_drop_short (by omega)]
      rfl

theorem EmmyFitness.parse_eq (f : Bytes) :
    EmmyFitness.parse f =
      if f[4]? = some 0 then .ok (f.drop 5, ⟨0, f.drop 5⟩)
      else if f[4]? = some 1 then .ok (f.drop 5, ⟨1, f.drop 5⟩)
      else .error .err := by
  unfold EmmyFitness.parse
  rw [← List.drop_zero (l := f)]
  by_cases h0 : 4 ≤ f.length
  · rw [nTake_drop (by omega)]
    simp only [ebind_ok_left, Nat.zero_add, List.drop_zero]
    by_cases h1 : f[4]? = some 0
    · rw [nTag1_drop h1, if_pos h1]
      rfl
    · rw [nTag1_drop_ne h1, if_neg h1]
      simp only
      by_cases h2 : f[4]? = some 1
      · rw [nTag1_drop h2, if_pos h2]; rfl
      · rw [nTag1_drop_ne h2, if_neg h2]; rfl
  · rw [nTake_drop_short (by omega) (by omega)]
    have : f[4]? = none := by simp; omega
    simp [this]

theorem TenderbakeFitness.parse_eq (f : Bytes) :
    TenderbakeFitness.parse f =
      if f[4]? = some 2 then
        if f.length < 9 then .error .panic
        else .ok (f.drop 5, ⟨f.drop 5, u32OfBe (f.drop (f.length - 4))⟩)
      else .error .err := by
  unfold TenderbakeFitness.parse
  rw [← List.drop_zero (l := f)]
  by_cases h0 : 4 ≤ f.length
  · rw [nTake_drop (by omega)]
    simp only [ebind_ok_left, Nat.zero_add, List.drop_zero]
    by_cases h1 : f[4]? = some 2
    · have hl : 4 < f.length := by
        have := (List.getElem?_eq_some_iff.mp h1).1; omega
      rw [nTag1_drop h1, if_pos h1]
      simp only [ebind_ok_left, List.length_drop]
      by_cases h2 : f.length < 9
      · rw [if_pos (by omega), if_pos h2]
      · rw [if_neg (by omega), if_neg h2, List.drop_drop, nBeU32_drop (by omega)]
        have he : 5 + (f.length - 5 - 4) = f.length - 4 := by omega
        have hs : slice f (f.length - 4) 4 = f.drop (f.length - 4) := by
          unfold slice
          rw [List.take_of_length_le]
          simp; omega
        simp only [ebind_ok_left, ePure, Nat.reduceAdd, he, hs]
    · rw [nTag1_drop_ne h1, if_neg h1]; rfl
  · rw [nTake_drop_short (by omega) (by omega)]
    have : f[4]? = none := by simp; omega
    simp [this]

/-- Outcome of the fitness parser. -/
theorem Fitness.parse_eq (f : Bytes) :
    Fitness.parse f =
      if f[4]? = some 0 then .ok (f.drop 5, .emmy ⟨0, f.drop 5⟩)
      else if f[4]? = some 1 then .ok (f.drop 5, .emmy ⟨1, f.drop 5⟩)
      else if f[4]? = some 2 then
        if f.length < 9 then .error .panic
        else .ok (f.drop 5, .tenderbake ⟨f.drop 5, u32OfBe (f.drop (f.length - 4))⟩)
      else .error .err := by
  unfold Fitness.parse
  rw [EmmyFitness.parse_eq, TenderbakeFitness.parse_eq]
  by_cases h0 : f[4]? = some 0
  · simp [h0]
  · by_cases h1 : f[4]? = some 1
    · simp [h1]
    · by_cases h2 : f[4]? = some 2
      · simp only [h2, if_true]
        by_cases h3 : f.length < 9
        · simp [h3]
        · simp [h3]
      · simp [h0, h1, h2]

theorem BlockData.parse_eq (i : Bytes) :
    BlockData.parse i =
      if i.length < 86 then .error .err
      else if i.length < 86 + (u32OfBe (slice i 82 4)).toNat then .error .err
      else
        match Fitness.parse (slice i 86 (u32OfBe (slice i 82 4)).toNat) with
        | .error e => .error e
        | .ok (r, f) => .ok (r, ⟨u32OfBe (slice i 0 4), u32OfBe (slice i 4 4), i.getD 8 0, slice i 9 32,
            u64OfBe (slice i 41 8), i.getD 49 0, slice i 50 32, f⟩) := by
  unfold BlockData.parse
  rw [← List.drop_zero (l := i)]
  by_cases h1 : 4 ≤ i.length
  case neg => rw [nBeU32_drop_short (by omega), if_pos (by simp; omega)]; rfl
  rw [nBeU32_drop (by omega)]
  simp only [ebind_ok_left]
  by_cases h2 : 8 ≤ i.length
  case neg => rw [nBeU32_drop_short (by omega), if_pos (by simp; omega)]; rfl
  rw [nBeU32_drop (by omega)]
  simp only [ebind_ok_left]
  by_cases h3 : 9 ≤ i.length
  case neg => rw [nU8_drop_short (by omega), if_pos (by simp; omega)]; rfl
  rw [nU8_drop (by omega)]
  simp only [ebind_ok_left]
  by_cases h4 : 41 ≤ i.length
  case neg => rw [nTake_drop_short (by omega) (by omega), if_pos (by simp; omega)]; rfl
  rw [nTake_drop (by omega)]
  simp only [ebind_ok_left]
  by_cases h5 : 49 ≤ i.length
  case neg => rw [nBeU64_drop_short (by omega), if_pos (by simp; omega)]; rfl
  rw [nBeU64_drop (by omega)]
  simp only [ebind_ok_left]
  by_cases h6 : 50 ≤ i.length
  case neg => rw [nU8_drop_short (by omega), if_pos (by simp; omega)]; rfl
  rw [nU8_drop (by omega)]
  simp only [ebind_ok_left]
  by_cases h7 : 82 ≤ i.length
  case neg => rw [nTake_drop_short (by omega) (by omega), if_pos (by simp; omega)]; rfl
  rw [nTake_drop (by omega)]
  simp only [ebind_ok_left]
  by_cases h8 : 86 ≤ i.length
  case neg => rw [nBeU32_drop_short (by omega), if_pos (by simp; omega)]; rfl
  rw [nBeU32_drop (by omega), if_neg (by simp; omega)]
  simp only [ebind_ok_left, Nat.zero_add, Nat.reduceAdd, List.drop_zero]
  by_cases h9 : 86 + (u32OfBe (slice i 82 4)).toNat ≤ i.length
  case neg =>
    have : nTake (u32OfBe (slice i 82 4)).toNat (i.drop 86) = .error .err := by
      rw [nTake_error]; simp; omega
    rw [this, if_pos (by omega)]; rfl
  rw [nTake_drop (by omega), if_neg (by omega)]
  simp only [ebind_ok_left]
  have g8 : i[8] = i.getD 8 0 := by simp [List.getD_eq_getElem?_getD, List.getElem?_eq_getElem (show 8 < i.length by omega)]
  have g49 : i[49] = i.getD 49 0 := by simp [List.getD_eq_getElem?_getD, List.getElem?_eq_getElem (show 49 < i.length by omega)]
  rw [g8, g49]
  cases Fitness.parse (slice i 86 (u32OfBe (slice i 82 4)).toNat) <;> rfl

end Tezos
