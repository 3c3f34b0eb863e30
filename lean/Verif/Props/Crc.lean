import Verif.Flash
/-
C20: the flash page codec and its checksum.
-/
namespace Tezos

theorem crcBit_getLsbD (c : UInt32) (i : Nat) (_ : i < 32) :
    (crcBit c).toBitVec.getLsbD i =
      ((c.toBitVec.getLsbD (i + 1)) ^^ (c.toBitVec.getLsbD 0 && (0xEDB88320#32).getLsbD i)) := by
  have key : (c &&& 1 = 1) ↔ c.toBitVec.getLsbD 0 = true := by
    rw [← UInt32.toBitVec_inj]
    constructor
    · intro h
      have := congrArg (fun b => b.getLsbD 0) h
      simpa using this
    · intro h
      apply BitVec.eq_of_getLsbD_eq
      intro j hj
      by_cases h0 : j = 0
      · subst h0; simpa using h
      · have : (1#32).getLsbD j = false := by
          rw [BitVec.getLsbD_one]; simp [h0]
        simp [this]
  unfold crcBit
  by_cases h : c &&& 1 = 1
  · rw [if_pos h]
    have h' := key.mp h
    simp only [UInt32.toBitVec_xor, UInt32.toBitVec_shiftRight, BitVec.getLsbD_xor, h', Bool.true_and]
    congr 1
    simp [Nat.add_comm]
  · rw [if_neg h]
    have h' : c.toBitVec.getLsbD 0 = false := by
      cases hb : c.toBitVec.getLsbD 0
      · rfl
      · exact absurd (key.mpr hb) h
    simp only [UInt32.toBitVec_shiftRight, h', Bool.false_and, Bool.xor_false]
    simp [Nat.add_comm]

theorem crcBit_inj {a b : UInt32} (h : crcBit a = crcBit b) : a = b := by
  have hbits : ∀ i, i < 32 → (crcBit a).toBitVec.getLsbD i = (crcBit b).toBitVec.getLsbD i := by
    intro i _; rw [h]
  have h0 : a.toBitVec.getLsbD 0 = b.toBitVec.getLsbD 0 := by
    have := hbits 31 (by decide)
    rw [crcBit_getLsbD a 31 (by decide), crcBit_getLsbD b 31 (by decide)] at this
    simpa using this
  rw [← UInt32.toBitVec_inj]
  apply BitVec.eq_of_getLsbD_eq
  intro i hi
  cases i with
  | zero => exact h0
  | succ i =>
    have := hbits i (by omega)
    rw [crcBit_getLsbD a i (by omega), crcBit_getLsbD b i (by omega), h0] at this
    simpa using this

theorem xor_left_inj32 {a b c : UInt32} (h : a ^^^ b = a ^^^ c) : b = c := by
  have := congrArg (a ^^^ ·) h
  simpa [← UInt32.xor_assoc] using this

theorem xor_right_inj32 {a b c : UInt32} (h : b ^^^ a = c ^^^ a) : b = c := by
  rw [UInt32.xor_comm b, UInt32.xor_comm c] at h
  exact xor_left_inj32 h

theorem toUInt32_inj8 {a b : UInt8} (h : a.toUInt32 = b.toUInt32) : a = b := by
  have := congrArg UInt32.toNat h
  simp at this
  exact UInt8.toNat_inj.mp this

theorem crcByte_state_inj {a b : UInt32} {x : UInt8} (h : crcByte a x = crcByte b x) : a = b := by
  unfold crcByte at h
  exact xor_right_inj32 (crcBit_inj (crcBit_inj (crcBit_inj (crcBit_inj (crcBit_inj (crcBit_inj
    (crcBit_inj (crcBit_inj h))))))))

theorem crcByte_byte_inj {a : UInt32} {x y : UInt8} (h : crcByte a x = crcByte a y) : x = y := by
  unfold crcByte at h
  exact toUInt32_inj8 (xor_left_inj32 (crcBit_inj (crcBit_inj (crcBit_inj (crcBit_inj (crcBit_inj
    (crcBit_inj (crcBit_inj (crcBit_inj h)))))))))

theorem crc_foldl_inj {l : Bytes} {a b : UInt32} (h : l.foldl crcByte a = l.foldl crcByte b) : a = b := by
  induction l generalizing a b with
  | nil => exact h
  | cons x l ih => exact crcByte_state_inj (ih h)

theorem not_inj32 {a b : UInt32} (h : ~~~ a = ~~~ b) : a = b := by
  have := congrArg (~~~ ·) h
  simpa using this

/-- Changing one byte changes the CRC-32. -/
theorem crc32_single_byte {l r : Bytes} {x y : UInt8} (h : crc32 (l ++ x :: r) = crc32 (l ++ y :: r)) :
    x = y := by
  unfold crc32 at h
  have := not_inj32 h
  simp only [List.foldl_append, List.foldl_cons] at this
  exact crcByte_byte_inj (crc_foldl_inj this)

/-- The page decoder in terms of the raw bytes. -/
theorem Slot.ofPage_isSome {page : Bytes} (hl : page.length = 64) :
    (Slot.ofPage page).isSome ↔ page.drop 60 = be32 (crc32 (page.take 60)) := by
  have h1 : beEnc 8 (beDec (page.take 8)) = page.take 8 := by
    have := beEnc_beDec (page.take 8)
    rwa [show (page.take 8).length = 8 by simp [hl]] at this
  have h2 : page.take 8 ++ slice page 8 slotSize = page.take 60 := by
    unfold slice slotSize
    rw [show (60 : Nat) = 8 + 52 by rfl, List.take_add]
  unfold Slot.ofPage
  simp only [slotCrc, h1, h2]
  constructor
  · intro h
    split at h
    · rename_i hc
      rw [← hc, be32_u32OfBe (by simp [hl])]
    · simp at h
  · intro h
    rw [h]
    simp

/-- C20, round trip: what is stored with counter `c` and 52 byte payload `p` is read back exactly. -/
theorem C20_page_roundtrip {c : Nat} {p : Bytes} (hc : c < 2 ^ 64) (hp : p.length = 52) :
    (Slot.toPage c p).length = 64 ∧ Slot.ofPage (Slot.toPage c p) = some ⟨c, p⟩ :=
  ⟨Slot.toPage_length hp, Slot.ofPage_toPage hc hp⟩

/-- C20, corruption: altering any single byte of a valid 64 byte page makes it invalid. -/
theorem C20_single_byte_corruption_detected {page : Bytes} (hl : page.length = 64)
    (hv : (Slot.ofPage page).isSome) {i : Nat} (hi : i < 64) {b : UInt8} (hb : page[i]? ≠ some b) :
    Slot.ofPage (page.set i b) = none := by
  rw [Slot.ofPage_isSome hl] at hv
  rw [← Option.not_isSome_iff_eq_none, Slot.ofPage_isSome (by simpa using hl)]
  intro h
  have hi' : i < page.length := by omega
  have hpi : page[i]? = some page[i] := List.getElem?_eq_getElem hi'
  by_cases h60 : i < 60
  · -- the protected part changes, the stored checksum does not
    have hd : (page.set i b).drop 60 = page.drop 60 := by
      rw [List.drop_set_of_lt (by omega)]
    rw [hd, hv] at h
    have h := be32_inj h
    have e1 : page.take 60 = page.take i ++ page[i] :: (page.take 60).drop (i + 1) := by
      have hlt : i < (page.take 60).length := by simp; omega
      have := List.take_append_drop i (page.take 60)
      rw [List.drop_eq_getElem_cons hlt, List.take_take, Nat.min_eq_left (by omega),
        List.getElem_take] at this
      exact this.symm
    have e2 : (page.set i b).take 60 = page.take i ++ b :: (page.take 60).drop (i + 1) := by
      rw [List.take_set]
      rw [List.set_eq_take_append_cons_drop, if_pos (by simp; omega), List.take_take,
        Nat.min_eq_left (by omega)]
    rw [e1, e2] at h
    exact hb (by rw [hpi, crc32_single_byte h])
  · -- the stored checksum changes, the protected part does not
    have ht : (page.set i b).take 60 = page.take 60 := by
      rw [List.take_set]
      exact List.set_eq_of_length_le (by simp; omega)
    rw [ht, ← hv] at h
    have : (page.set i b).getD i 0 = page.getD i 0 := by
      have e : i = 60 + (i - 60) := by omega
      have := congrArg (fun l => l.getD (i - 60) 0) h
      simp only [List.getD_eq_getElem?_getD, List.getElem?_drop] at this
      rw [← e] at this
      simpa [List.getD_eq_getElem?_getD] using this
    simp only [List.getD_eq_getElem?_getD, List.getElem?_set_self hi', hpi, Option.getD_some] at this
    exact hb (by rw [hpi, this])

/-- C20, initial contents: the page flashed with the app decodes as a slot with counter zero, the value
that `Wear::read` reports as uninitialized. -/
theorem C20_fresh_page_is_empty :
    zeroedPage.length = 64 ∧ Slot.ofPage zeroedPage = some ⟨0, List.replicate 52 0⟩ :=
  ⟨by decide, Slot.ofPage_zeroed⟩

/-- A case of the corruption theorem. -/
example : Slot.ofPage (zeroedPage.set 13 1) = none :=
  C20_single_byte_corruption_detected (by decide) (by rw [Slot.ofPage_zeroed]; rfl) (by decide)
    (by decide)

end Tezos
