import Verif.Bytes
/-
Specification of the variable-length natural numbers of the Tezos binary formats: groups of 7 bits, least
significant group first, the top bit of a byte announcing that another byte follows. (In the signed variant
the first byte carries only 6 bits of the magnitude and the sign in bit 6.)
-/
namespace Spec
open Tezos (Bytes)

/-- The number written by a sequence of bytes, unsigned variant. -/
def zarithValue : Bytes → Nat
  | [] => 0
  | b :: r => b.toNat % 128 + 128 * zarithValue r

/-- The magnitude written by a sequence of bytes, signed variant. -/
def zarithMagnitude : Bytes → Nat
  | [] => 0
  | b :: r => b.toNat % 64 + 64 * zarithValue r

/-- The canonical encoding of a number. -/
def zarithEncode (n : Nat) : Bytes :=
  if n < 128 then [UInt8.ofNat n] else UInt8.ofNat (n % 128 + 128) :: zarithEncode (n / 128)
termination_by n
decreasing_by omega

/-- A byte string is one complete number: every byte but the last has its top bit set. -/
def IsZarith : Bytes → Prop
  | [] => False
  | [b] => b.toNat < 128
  | b :: r => 128 ≤ b.toNat ∧ IsZarith r

theorem zarithValue_encode (n : Nat) : zarithValue (zarithEncode n) = n := by
  fun_induction zarithEncode n with
  | case1 n h =>
    simp only [zarithValue, UInt8.toNat_ofNat']
    omega
  | case2 n h ih =>
    simp only [zarithValue, UInt8.toNat_ofNat', ih]
    omega

theorem zarithEncode_ne_nil (n : Nat) : zarithEncode n ≠ [] := by
  unfold zarithEncode
  split <;> simp

theorem IsZarith_encode (n : Nat) : IsZarith (zarithEncode n) := by
  fun_induction zarithEncode n with
  | case1 n h => simp only [IsZarith, UInt8.toNat_ofNat']; omega
  | case2 n h ih =>
    match hr : zarithEncode (n / 128) with
    | [] => exact absurd hr (zarithEncode_ne_nil _)
    | c :: r =>
      rw [hr] at ih
      refine ⟨?_, ih⟩
      simp only [UInt8.toNat_ofNat']; omega

theorem zarithEncode_length {n k : Nat} (h : n < 128 ^ (k + 1)) : (zarithEncode n).length ≤ k + 1 := by
  induction k generalizing n with
  | zero => unfold zarithEncode; rw [if_pos (by omega)]; simp
  | succ k ih =>
    unfold zarithEncode
    split
    · simp
    · have : n / 128 < 128 ^ (k + 1) := by
        rw [Nat.div_lt_iff_lt_mul (by omega)]
        rw [Nat.pow_succ] at h
        exact h
      simp only [List.length_cons]
      have := ih this
      omega

theorem zarithValue_lt (b : Bytes) : zarithValue b < 128 ^ b.length := by
  induction b with
  | nil => simp [zarithValue]
  | cons x r ih =>
    simp only [zarithValue, List.length_cons, Nat.pow_succ]
    omega

end Spec
