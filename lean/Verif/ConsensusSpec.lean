import Verif.Consensus
/-
The automatic signing decision equals its specification on the signed bytes.
-/
namespace Tezos
open Spec (Item consensusItem u32At)

/-- The watermark that stands for a consensus item. -/
def WaterMark.ofItem (it : Item) : WaterMark :=
  if it.family = 0 then .emmy (UInt32.ofNat it.level) (decide (it.rank = 2))
  else .tenderbake (UInt32.ofNat it.level) (decide (it.rank = 2)) (UInt32.ofNat it.round)
    (decide (1 ≤ it.rank))

theorem slice_cons_succ (b : UInt8) (l : Bytes) (k n : Nat) : slice (b :: l) (k + 1) n = slice l k n := rfl

theorem slice4_toNat {i : Bytes} {o : Nat} (h : o + 4 ≤ i.length) :
    (u32OfBe (slice i o 4)).toNat = beDec (slice i o 4) :=
  u32OfBe_toNat (slice_length h)

theorem u32At_lt (m : Bytes) (o : Nat) : u32At m o < 2 ^ 32 := by
  have h := beDec_lt (slice m o 4)
  have hl : (slice m o 4).length ≤ 4 := by simp [slice]; omega
  have : 256 ^ (slice m o 4).length ≤ 256 ^ 4 := Nat.pow_le_pow_right (by omega) hl
  unfold u32At; omega

theorem ofNat_u32At {i : Bytes} (b : UInt8) (o : Nat) :
    UInt32.ofNat (u32At (b :: i) (o + 1)) = u32OfBe (slice i o 4) := rfl

/-- Facts about the items messages can have. -/
theorem consensusItem_shape {m : Bytes} {it : Item} (h : consensusItem m = some it) :
    it.level < 2 ^ 32 ∧ it.round < 2 ^ 32 ∧
    ((it.family = 0 ∧ it.round = 0 ∧ (it.rank = 0 ∨ it.rank = 2)) ∨ (it.family = 1 ∧ it.rank ≤ 2)) := by
  unfold consensusItem at h
  split at h; · simp at h
  repeat' split at h
  all_goals first
    | (simp at h; done)
    | (simp only [Option.some.injEq] at h; subst h
       refine ⟨u32At_lt _ _, ?_, ?_⟩
       · first | exact u32At_lt _ _ | exact (by decide : (0:Nat) < 2 ^ 32)
       · simp)

theorem WaterMark.item_ofItem {m : Bytes} {it : Item} (h : consensusItem m = some it) :
    (WaterMark.ofItem it).item = it := by
  obtain ⟨hl, hr, hs⟩ := consensusItem_shape h
  rcases it with ⟨f, l, r, k⟩
  simp only at hl hr hs
  have e1 : l % 4294967296 = l := Nat.mod_eq_of_lt hl
  have e2 : r % 4294967296 = r := Nat.mod_eq_of_lt hr
  rcases hs with ⟨rfl, rfl, rfl | rfl⟩ | ⟨rfl, hk⟩
  · simp [WaterMark.ofItem, WaterMark.item, e1]
  · simp [WaterMark.ofItem, WaterMark.item, e1]
  · simp only [WaterMark.ofItem, WaterMark.item]
    have : k = 0 ∨ k = 1 ∨ k = 2 := by omega
    rcases this with rfl | rfl | rfl <;> simp [e1, e2]

theorem preamble_parse_ok {m rem : Bytes} {p : Preamble} (h : Preamble.parse m = .ok (rem, p)) :
    ∃ b, m = b :: rem ∧ ((b = 0x01 ∧ p = .block) ∨ (b = 0x02 ∧ p = .endorsement) ∨
      (b = 0x03 ∧ p = .operation) ∨ (b = 0x04 ∧ p = .tbd) ∨ (b = 0x05 ∧ p = .michelson) ∨
      (b = 0x11 ∧ p = .tenderbakeBlock) ∨ (b = 0x12 ∧ p = .tenderbakePreendorsement) ∨
      (b = 0x13 ∧ p = .tenderbakeEndorsement)) := by
  unfold Preamble.parse at h
  obtain ⟨⟨r, b⟩, h1, h⟩ := ebind_ok.mp h
  rw [nU8_ok] at h1
  simp only at h
  refine ⟨b, ?_⟩
  repeat' split at h
  all_goals first
    | (simp at h; done)
    | (simp only [Except.ok.injEq, Prod.mk.injEq] at h
       obtain ⟨rfl, rfl⟩ := h
       simp_all)

theorem EmmyEndorsement.validate_iff {c l : UInt32} {br : Bytes} {hw : WaterMark} :
    EmmyEndorsement.validate ⟨c, br, l⟩ hw = true ↔
      l.toNat < 2 ^ 31 ∧ Item.lt hw.item ⟨0, l.toNat, 0, 2⟩ := by
  cases hw with
  | emmy lv e =>
    simp only [EmmyEndorsement.validate, isValidBlockLevel, WaterMark.item, Item.lt, Bool.and_eq_true,
      decide_eq_true_eq, Bool.or_eq_true, beq_iff_eq, gt_iff_lt, UInt32.lt_iff_toNat_lt,
      ← UInt32.toNat_inj, Bool.not_eq_true']
    cases e <;> simp <;> omega
  | tenderbake lv e r p =>
    simp [EmmyEndorsement.validate, WaterMark.item, Item.lt]

theorem TenderbakeEndorsement.validate_iff {x : TenderbakeEndorsement} {hw : WaterMark} :
    x.validate hw = true ↔
      x.level.toNat < 2 ^ 31 ∧ Item.lt hw.item
        ⟨1, x.level.toNat, x.round.toNat, if x.ty = .endorsement then 2 else 1⟩ := by
  rcases x with ⟨c, br, ty, sl, l, rd, bh⟩
  cases hw with
  | emmy lv e =>
    simp [TenderbakeEndorsement.validate, WaterMark.item, Item.lt, isValidBlockLevel]
  | tenderbake lv e r p =>
    simp only [TenderbakeEndorsement.validate, isValidBlockLevel, WaterMark.item, Item.lt,
      Bool.and_eq_true, decide_eq_true_eq, Bool.or_eq_true, beq_iff_eq, gt_iff_lt,
      UInt32.lt_iff_toNat_lt, ← UInt32.toNat_inj, Bool.not_eq_true']
    cases e <;> cases p <;> cases ty <;> simp <;> omega

theorem BlockData.validate_iff {x : BlockData} {hw : WaterMark} :
    x.validate hw = true ↔
      x.level.toNat < 2 ^ 31 ∧ Item.lt hw.item
        (match x.fitness with
         | .emmy _ => ⟨0, x.level.toNat, 0, 0⟩
         | .tenderbake f => ⟨1, x.level.toNat, f.round.toNat, 0⟩) := by
  rcases x with ⟨c, l, pr, pd, ts, vp, oh, fit⟩
  cases hw with
  | emmy lv e =>
    cases fit with
    | emmy f =>
      simp only [BlockData.validate, isValidBlockLevel, WaterMark.item, Item.lt, Bool.and_eq_true,
        decide_eq_true_eq, gt_iff_lt, UInt32.lt_iff_toNat_lt]
      cases e <;> simp
    | tenderbake f => simp [BlockData.validate, WaterMark.item, Item.lt, isValidBlockLevel]
  | tenderbake lv e r p =>
    cases fit with
    | emmy f => simp [BlockData.validate, WaterMark.item, Item.lt]
    | tenderbake f =>
      simp only [BlockData.validate, isValidBlockLevel, WaterMark.item, Item.lt, Bool.and_eq_true,
        decide_eq_true_eq, Bool.or_eq_true, beq_iff_eq, gt_iff_lt, UInt32.lt_iff_toNat_lt,
        ← UInt32.toNat_inj]
      cases e <;> cases p <;> simp <;> omega

/-- The specification of the decision: sign a well-formed item of a 31-bit level above the watermark. -/
def specDecide (m : Bytes) (hw : WaterMark) : Except HErr WaterMark :=
  match consensusItem m with
  | none => .error (.err .dataInvalid)
  | some it =>
    if it.level < 2 ^ 31 ∧ Item.lt hw.item it then .ok (WaterMark.ofItem it)
    else .error (.err .dataInvalid)

theorem endorsementDecide_eq {m rem : Bytes} {p : Preamble} {hw : WaterMark}
    (h : Preamble.parse m = .ok (rem, p))
    (hp : p = .endorsement ∨ p = .tenderbakePreendorsement ∨ p = .tenderbakeEndorsement) :
    endorsementDecide p rem hw = specDecide m hw := by
  obtain ⟨b, rfl, hb⟩ := preamble_parse_ok h
  have e37 : (b :: rem)[37]? = rem[36]? := rfl
  have len42 : (42 ≤ (b :: rem).length) ↔ 41 ≤ rem.length := by simp
  have len80 : (80 ≤ (b :: rem).length) ↔ 79 ≤ rem.length := by simp
  unfold endorsementDecide specDecide EndorsementData.parse
  rw [EmmyEndorsement.parse_eq, TenderbakeEndorsement.parse_eq]
  simp only [consensusItem, List.getElem?_cons_zero, e37, len42, len80]
  by_cases hE : 41 ≤ rem.length ∧ rem[36]? = some 0
  · -- the Emmy parser succeeds
    obtain ⟨hlen, htag⟩ := hE
    simp only [hlen, htag, and_self, if_true]
    rcases hb with ⟨rfl, rfl⟩ | ⟨rfl, rfl⟩ | ⟨rfl, rfl⟩ | ⟨rfl, rfl⟩ | ⟨rfl, rfl⟩ | ⟨rfl, rfl⟩ | ⟨rfl, rfl⟩ | ⟨rfl, rfl⟩
    all_goals first
      | (exfalso; simp at hp; done)
      | skip
    · have hl : (u32OfBe (slice rem 37 4)).toNat = u32At (2 :: rem) 38 := slice4_toNat (by omega)
      simp only [EndorsementData.validate, EmmyEndorsement.validate_iff, hl, if_true]
      simp [WaterMark.ofItem, EndorsementData.deriveWatermark, ofNat_u32At]
    · simp
    · simp
  · rw [if_neg hE]
    rcases hb with ⟨rfl, rfl⟩ | ⟨rfl, rfl⟩ | ⟨rfl, rfl⟩ | ⟨rfl, rfl⟩ | ⟨rfl, rfl⟩ | ⟨rfl, rfl⟩ | ⟨rfl, rfl⟩ | ⟨rfl, rfl⟩
    all_goals first
      | (exfalso; simp at hp; done)
      | skip
    · rw [if_neg (by decide), if_neg (by decide), if_pos rfl, if_neg hE]
      simp only
      cases h36 : rem[36]? with
      | none => rfl
      | some t =>
        simp only
        cases EndorsementType.ofTag t with
        | none => rfl
        | some ty =>
          simp only
          by_cases h79 : 79 ≤ rem.length <;> simp [h79]
    · rw [if_neg (by decide), if_neg (by decide), if_neg (by decide), if_pos rfl]
      simp only
      cases h36 : rem[36]? with
      | none => simp
      | some t =>
        simp only
        by_cases h20 : t = 20
        · subst h20
          simp only [EndorsementType.ofTag, if_true]
          by_cases h79 : 79 ≤ rem.length
          · have hl : (u32OfBe (slice rem 39 4)).toNat = u32At (0x12 :: rem) 40 := slice4_toNat (by omega)
            have hr : (u32OfBe (slice rem 43 4)).toNat = u32At (0x12 :: rem) 44 := slice4_toNat (by omega)
            simp [h79, EndorsementData.validate, TenderbakeEndorsement.validate_iff, hl, hr,
              WaterMark.ofItem, EndorsementData.deriveWatermark, ofNat_u32At]
          · simp [h79]
        · by_cases h21 : t = 21
          · subst h21
            simp only [EndorsementType.ofTag]
            by_cases h79 : 79 ≤ rem.length <;> simp [h79]
          · simp [EndorsementType.ofTag, h20, h21]
    · rw [if_neg (by decide), if_neg (by decide), if_neg (by decide), if_neg (by decide), if_pos rfl]
      simp only
      cases h36 : rem[36]? with
      | none => simp
      | some t =>
        simp only
        by_cases h21 : t = 21
        · subst h21
          simp only [EndorsementType.ofTag]
          by_cases h79 : 79 ≤ rem.length
          · have hl : (u32OfBe (slice rem 39 4)).toNat = u32At (0x13 :: rem) 40 := slice4_toNat (by omega)
            have hr : (u32OfBe (slice rem 43 4)).toNat = u32At (0x13 :: rem) 44 := slice4_toNat (by omega)
            simp [h79, EndorsementData.validate, TenderbakeEndorsement.validate_iff, hl, hr,
              WaterMark.ofItem, EndorsementData.deriveWatermark, ofNat_u32At]
          · simp [h79]
        · by_cases h20 : t = 20
          · subst h20
            simp only [EndorsementType.ofTag, if_true]
            by_cases h79 : 79 ≤ rem.length <;> simp [h79]
          · simp [EndorsementType.ofTag, h20, h21]

/-- The block messages on which the Tenderbake fitness parser aborts. -/
def blockAborts (m : Bytes) : Prop :=
  87 ≤ m.length ∧ u32At m 83 < 9 ∧ 5 ≤ u32At m 83 ∧ 87 + u32At m 83 ≤ m.length ∧ m[91]? = some 2

instance (m : Bytes) : Decidable (blockAborts m) := by unfold blockAborts; infer_instance

theorem blockDecide_eq {m rem : Bytes} {p : Preamble} {hw : WaterMark}
    (h : Preamble.parse m = .ok (rem, p)) (hp : p = .block ∨ p = .tenderbakeBlock) :
    blockDecide p rem hw = if blockAborts m then .error .panic else specDecide m hw := by
  obtain ⟨b, rfl, hb⟩ := preamble_parse_ok h
  have hb' : (b = 0x01 ∧ p = .block) ∨ (b = 0x11 ∧ p = .tenderbakeBlock) := by
    rcases hb with ⟨rfl, rfl⟩ | ⟨rfl, rfl⟩ | ⟨rfl, rfl⟩ | ⟨rfl, rfl⟩ | ⟨rfl, rfl⟩ | ⟨rfl, rfl⟩ | ⟨rfl, rfl⟩ | ⟨rfl, rfl⟩ <;>
      simp_all
  clear hb hp
  have e91 : (b :: rem)[91]? = rem[90]? := rfl
  have len87 : (87 ≤ (b :: rem).length) ↔ 86 ≤ rem.length := by simp
  have lenL : ∀ n, (87 + n ≤ (b :: rem).length) ↔ 86 + n ≤ rem.length := by intro n; simp; omega
  unfold blockDecide specDecide
  rw [BlockData.parse_eq]
  simp only [consensusItem, List.getElem?_cons_zero, e91, len87, lenL, blockAborts]
  by_cases h86 : rem.length < 86
  · have h86' : ¬ 86 ≤ rem.length := by omega
    simp only [h86, h86', if_true, false_and, if_false]
    rcases hb' with ⟨rfl, rfl⟩ | ⟨rfl, rfl⟩ <;> simp
  have h86' : 86 ≤ rem.length := by omega
  have hL : (u32OfBe (slice rem 82 4)).toNat = u32At (b :: rem) 83 := slice4_toNat (by omega)
  have hlv : (u32OfBe (slice rem 4 4)).toNat = u32At (b :: rem) 5 := slice4_toNat (by omega)
  simp only [h86, h86', true_and, if_false, hL]
  generalize hLd : u32At (b :: rem) 83 = L
  by_cases hfit : rem.length < 86 + L
  · have hfit' : ¬ 86 + L ≤ rem.length := by omega
    simp only [hfit, hfit', if_true, false_and, and_false, if_false]
    rcases hb' with ⟨rfl, rfl⟩ | ⟨rfl, rfl⟩ <;> simp
  have hfit' : 86 + L ≤ rem.length := by omega
  have hsl : (slice rem 86 L).length = L := slice_length hfit'
  have hf4 : (slice rem 86 L)[4]? = if 5 ≤ L then rem[90]? else none := by
    unfold slice
    rw [List.getElem?_take, List.getElem?_drop]
    by_cases h5 : 5 ≤ L
    · rw [if_pos (by omega), if_pos h5]
    · rw [if_neg (by omega), if_neg h5]
  simp only [hfit, hfit', true_and, if_false]
  rw [Fitness.parse_eq, hf4, hsl]
  by_cases h5 : 5 ≤ L
  case neg =>
    have h9 : ¬ 9 ≤ L := by omega
    simp only [h5, h9, if_false, false_and, and_false]
    rcases hb' with ⟨rfl, rfl⟩ | ⟨rfl, rfl⟩ <;> simp
  simp only [h5, if_true, true_and]
  by_cases t0 : rem[90]? = some 0
  · simp only [t0, if_true]
    rcases hb' with ⟨rfl, rfl⟩ | ⟨rfl, rfl⟩
    · simp [BlockData.validate_iff, hlv, WaterMark.ofItem, BlockData.deriveWatermark, ofNat_u32At]
    · simp
  by_cases t1 : rem[90]? = some 1
  · simp only [t1]
    rcases hb' with ⟨rfl, rfl⟩ | ⟨rfl, rfl⟩
    · simp [BlockData.validate_iff, hlv, WaterMark.ofItem, BlockData.deriveWatermark, ofNat_u32At]
    · simp
  by_cases t2 : rem[90]? = some 2
  · simp only [t2]
    by_cases h9 : L < 9
    · simp [h9]
    · have h9' : 9 ≤ L := by omega
      have hround : (slice rem 86 L).drop (L - 4) = slice rem (86 + L - 4) 4 := by
        unfold slice
        rw [List.drop_take, List.drop_drop]
        congr 1
        · omega
        · congr 1; omega
      have hrd : (u32OfBe (slice rem (86 + L - 4) 4)).toNat = u32At (b :: rem) (87 + L - 4) := by
        rw [slice4_toNat (by omega)]
        have : 87 + L - 4 = (86 + L - 4) + 1 := by omega
        rw [this]; rfl
      have hrd2 : UInt32.ofNat (u32At (b :: rem) (87 + L - 4)) = u32OfBe (slice rem (86 + L - 4) 4) := by
        rw [← hrd]; simp
      rcases hb' with ⟨rfl, rfl⟩ | ⟨rfl, rfl⟩
      · simp [h9]
      · simp only [h9, hround]
        simp [BlockData.validate_iff, hlv, hrd, h9', WaterMark.ofItem, BlockData.deriveWatermark,
          ofNat_u32At, hrd2]
  · simp only [t0, t1, t2]
    rcases hb' with ⟨rfl, rfl⟩ | ⟨rfl, rfl⟩ <;> simp

end Tezos
