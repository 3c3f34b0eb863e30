import Verif.Zarith
import Verif.Spec.Zarith
import Mathlib.Tactic.Ring
/-
C33: numbers shown are the numbers signed.
-/
namespace Tezos
open Spec

theorem and_0x7F (b : UInt8) : (b &&& 0x7F).toNat = b.toNat % 128 := by
  rw [UInt8.toNat_and]
  exact Nat.and_two_pow_sub_one_eq_mod b.toNat 7

theorem and_0x3F (b : UInt8) : (b &&& 0x3F).toNat = b.toNat % 64 := by
  rw [UInt8.toNat_and]
  exact Nat.and_two_pow_sub_one_eq_mod b.toNat 6

theorem and_0x80 (b : UInt8) : (b &&& 0x80 != 0) = decide (128 ≤ b.toNat) := by
  have : ∀ n : Nat, n < 256 → ((UInt8.ofNat n &&& 0x80 != 0) = decide (128 ≤ (UInt8.ofNat n).toNat)) := by
    decide +kernel
  have h := this b.toNat b.toNat_lt
  simpa using h

/-- Or-ing a chunk beyond the bits already written is addition. -/
theorem or_shift_eq {out x shift nBits w : Nat} (ho : out < 2 ^ shift) (hx : x < 2 ^ w)
    (hs : shift + w ≤ nBits) : out ||| ((x <<< shift) % 2 ^ nBits) = out + x * 2 ^ shift := by
  have h1 : x <<< shift < 2 ^ nBits := by
    rw [Nat.shiftLeft_eq]
    calc x * 2 ^ shift < 2 ^ w * 2 ^ shift := (Nat.mul_lt_mul_right (Nat.two_pow_pos _)).mpr hx
      _ = 2 ^ (shift + w) := by rw [Nat.pow_add]; ring
      _ ≤ 2 ^ nBits := Nat.pow_le_pow_right (by omega) hs
  rw [Nat.mod_eq_of_lt h1, Nat.or_comm, ← Nat.shiftLeft_add_eq_or_of_lt ho, Nat.shiftLeft_eq]
  omega

theorem add_mul_lt {out x shift w : Nat} (ho : out < 2 ^ shift) (hx : x < 2 ^ w) :
    out + x * 2 ^ shift < 2 ^ (shift + w) := by
  have : (x + 1) * 2 ^ shift ≤ 2 ^ w * 2 ^ shift := Nat.mul_le_mul_right _ (by omega)
  rw [Nat.pow_add, Nat.mul_comm (2 ^ shift)]
  rw [Nat.add_mul] at this
  omega

theorem readLoop_unsigned {nBits : Nat} {first signed : Bool} (hu : (first && signed) = false) :
    ∀ (bs : Bytes) (out shift : Nat), out < 2 ^ shift →
      Zarith.readLoop nBits signed first out shift bs =
        if shift + 7 * bs.length ≤ nBits ∨ bs = [] then some (out + zarithValue bs * 2 ^ shift) else none := by
  intro bs
  induction bs with
  | nil => intro out shift _; simp [Zarith.readLoop, zarithValue]
  | cons b r ih =>
    intro out shift ho
    unfold Zarith.readLoop
    simp only [hu, Bool.false_eq_true, if_false, List.length_cons, reduceCtorEq, or_false]
    have hb : b.toNat % 128 < 2 ^ 7 := by omega
    by_cases hfit : shift + 7 ≤ nBits
    · rw [if_neg (by omega), and_0x7F, or_shift_eq ho hb hfit, ih _ _ (add_mul_lt ho hb)]
      have hval : out + b.toNat % 128 * 2 ^ shift + zarithValue r * 2 ^ (shift + 7)
          = out + zarithValue (b :: r) * 2 ^ shift := by
        simp only [zarithValue, Nat.pow_add]; ring
      rw [hval]
      cases r with
      | nil => simp [hfit]
      | cons c r =>
        simp only [reduceCtorEq, or_false]
        by_cases h : shift + 7 + 7 * (c :: r).length ≤ nBits
        · rw [if_pos h, if_pos (by omega)]
        · rw [if_neg h, if_neg (by omega)]
    · rw [if_pos (by omega), if_neg (by omega)]

/-- C33 (unsigned, any register width): reading gives the mathematical value of the encoding, and gives it
exactly when all the 7-bit groups fit the register. -/
theorem C33_value (nBits : Nat) (bs : Bytes) :
    Zarith.readAs nBits ⟨bs, none⟩ =
      if 7 * bs.length ≤ nBits then some (false, zarithValue bs) else none := by
  unfold Zarith.readAs
  rw [readLoop_unsigned (by rfl) bs 0 0 (by simp)]
  cases bs with
  | nil => simp
  | cons b r => by_cases h : 7 * (b :: r).length ≤ nBits <;> simp

/-- C33 (signed, any register width). -/
theorem C33_value_signed (nBits : Nat) (neg : Bool) (b : UInt8) (r : Bytes) :
    Zarith.readAs nBits ⟨b :: r, some neg⟩ =
      if 6 + 7 * r.length ≤ nBits then some (neg, zarithMagnitude (b :: r)) else none := by
  unfold Zarith.readAs
  simp only [Option.isSome_some]
  unfold Zarith.readLoop
  simp only [Bool.and_self, if_true, Nat.zero_add, Option.getD_some]
  have hb : b.toNat % 64 < 2 ^ 6 := by omega
  by_cases hfit : 6 ≤ nBits
  · rw [if_neg (by omega), and_0x3F, or_shift_eq (shift := 0) (w := 6) (by simp) hb (by omega)]
    simp only [Nat.pow_zero, Nat.mul_one, Nat.zero_add]
    rw [readLoop_unsigned (by rfl) r _ 6 hb]
    have hval : b.toNat % 64 + zarithValue r * 2 ^ 6 = zarithMagnitude (b :: r) := by
      simp only [zarithMagnitude]; ring
    rw [hval]
    cases r with
    | nil => simp [hfit]
    | cons c r => by_cases h : 6 + 7 * (c :: r).length ≤ nBits <;> simp
  · rw [if_pos (by omega), if_neg (by omega)]
    rfl

/-- C33: nothing is returned, rather than a wrapped value, when the number does not fit. -/
theorem C33_no_wrap {nBits : Nat} {bs : Bytes} (h : 2 ^ nBits ≤ zarithValue bs) :
    Zarith.readAs nBits ⟨bs, none⟩ = none := by
  rw [C33_value, if_neg]
  intro hle
  have h1 := zarithValue_lt bs
  have h2 : (128 : Nat) ^ bs.length = 2 ^ (7 * bs.length) := by
    rw [show (128 : Nat) = 2 ^ 7 by rfl, ← Nat.pow_mul]
  have h3 : 2 ^ (7 * bs.length) ≤ 2 ^ nBits := Nat.pow_le_pow_right (by omega) hle
  omega

/-- C33: on the 32-bit devices every canonical encoding of a number below 2^28 is read back exactly. -/
theorem C33_canonical_read {n : Nat} (h : n < 2 ^ 28) :
    Zarith.readAs usizeBits ⟨zarithEncode n, none⟩ = some (false, n) := by
  have hl := zarithEncode_length (k := 3) (n := n) (by omega)
  rw [C33_value, if_pos (by simp [usizeBits]; omega), zarithValue_encode]

/-- C33, limit on the 32-bit devices: numbers that need five bytes are refused although those below 2^32
fit the register; the first one is 2^28 (268.435456 tez for an amount). -/
theorem C33_five_bytes_refused {n : Nat} (h : 2 ^ 28 ≤ n) :
    Zarith.readAs usizeBits ⟨zarithEncode n, none⟩ = none := by
  rw [C33_value, if_neg]
  intro hle
  have h1 := zarithValue_lt (zarithEncode n)
  rw [zarithValue_encode] at h1
  have : 128 ^ (zarithEncode n).length ≤ 128 ^ 4 :=
    Nat.pow_le_pow_right (by omega) (by simp [usizeBits] at hle; omega)
  omega

/-- What the decoder takes: exactly one complete number. -/
theorem Zarith.fromBytes_ok {i rem : Bytes} {z : Zarith} :
    Zarith.fromBytes false i = .ok (rem, z) ↔ i = z.bytes ++ rem ∧ IsZarith z.bytes ∧ z.isNegative = none := by
  unfold Zarith.fromBytes
  simp only [ebind_ok, Prod.exists, ePure, Except.ok.injEq, Prod.mk.injEq, nTake_ok, Bool.false_eq_true,
    if_false]
  constructor
  · rintro ⟨r, bs, ⟨h, hl⟩, rfl, rfl⟩
    refine ⟨h, ?_, rfl⟩
    subst h
    simp only
    induction bs with
    | nil => simp at hl
    | cons b bs ih =>
      simp only [List.cons_append, List.takeWhile_cons, and_0x80] at hl
      by_cases hb : 128 ≤ b.toNat
      · simp only [hb, decide_true, if_true, List.length_cons] at hl
        have := ih (by simp only [and_0x80]; omega)
        match bs with
        | [] => simp at hl
        | c :: cs => exact ⟨hb, this⟩
      · simp only [hb, decide_false, Bool.false_eq_true, if_false, List.length_cons, List.length_nil] at hl
        have : bs = [] := by
          apply List.eq_nil_of_length_eq_zero; omega
        subst this
        simp only [IsZarith]; omega
  · rintro ⟨rfl, hz, hn⟩
    refine ⟨rem, z.bytes, ⟨rfl, ?_⟩, rfl, ?_⟩
    · generalize z.bytes = bs at hz
      clear hn
      induction bs with
      | nil => exact absurd hz (by simp [IsZarith])
      | cons b bs ih =>
        match bs, hz, ih with
        | [], hz, _ =>
          simp only [IsZarith] at hz
          have hb : ¬ 128 ≤ b.toNat := by omega
          simp [and_0x80, hb]
        | c :: cs, hz, ih =>
          simp only [IsZarith] at hz
          have := ih hz.2
          simp only [List.cons_append, List.takeWhile_cons, and_0x80, hz.1, decide_true, if_true,
            List.length_cons] at this ⊢
          omega
    · cases z; simp_all

/-- Decoding the canonical encoding of a number, whatever follows it. -/
theorem Zarith.fromBytes_encode (n : Nat) (rem : Bytes) :
    Zarith.fromBytes false (zarithEncode n ++ rem) = .ok (rem, ⟨zarithEncode n, none⟩) :=
  Zarith.fromBytes_ok.mpr ⟨rfl, IsZarith_encode n, rfl⟩

example : Zarith.readAs 32 ⟨[0xC0, 0x84, 0x3D], none⟩ = some (false, 1000000) := by decide
example : Zarith.readAs 32 ⟨[0x80, 0x80, 0x80, 0x80, 1], none⟩ = none := by decide
example : (2 : Nat) ^ 32 ≤ zarithValue [0x80, 0x80, 0x80, 0x80, 0x10] := by decide

end Tezos
