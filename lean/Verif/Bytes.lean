/-
Byte strings and big-endian numbers.

Models the Rust primitives `u16/u32/u64::{to_be_bytes,from_be_bytes}` (core library), used for
instance in rust/app/src/handlers/hwm.rs 209-213 and rust/bolos/src/flash_slot.rs 61-65.
-/
namespace Tezos

/-- A byte slice `&[u8]`. -/
abbrev Bytes := List UInt8

/-- Big-endian encoding of `v` on `k` bytes (`to_be_bytes`; `v` is taken modulo `256^k`). -/
def beEnc : Nat → Nat → Bytes
  | 0, _ => []
  | k + 1, v => UInt8.ofNat (v / 256 ^ k) :: beEnc k v

/-- Value of a big-endian byte string (`from_be_bytes`). -/
def beDec (bs : Bytes) : Nat := bs.foldl (fun a b => a * 256 + b.toNat) 0

@[simp] theorem beEnc_length (k v : Nat) : (beEnc k v).length = k := by
  induction k generalizing v with
  | zero => rfl
  | succ k ih => simp [beEnc, ih]

theorem beDec_foldl (bs : Bytes) (a : Nat) :
    bs.foldl (fun a b => a * 256 + b.toNat) a = a * 256 ^ bs.length + beDec bs := by
  induction bs generalizing a with
  | nil => simp [beDec]
  | cons b bs ih =>
    simp only [List.foldl_cons, List.length_cons, beDec]
    rw [ih, ih (0 * 256 + b.toNat)]
    rw [Nat.pow_succ]
    simp only [Nat.zero_mul, Nat.zero_add, Nat.add_mul]
    have : a * 256 * 256 ^ bs.length = a * (256 ^ bs.length * 256) := by
      rw [Nat.mul_assoc, Nat.mul_comm 256]
    omega

@[simp] theorem beDec_nil : beDec [] = 0 := rfl

theorem beDec_cons (b : UInt8) (bs : Bytes) :
    beDec (b :: bs) = b.toNat * 256 ^ bs.length + beDec bs := by
  have := beDec_foldl bs b.toNat
  simpa [beDec] using this

theorem beDec_append (as bs : Bytes) :
    beDec (as ++ bs) = beDec as * 256 ^ bs.length + beDec bs := by
  unfold beDec
  rw [List.foldl_append, beDec_foldl]
  rfl

theorem beDec_lt (bs : Bytes) : beDec bs < 256 ^ bs.length := by
  induction bs with
  | nil => simp
  | cons b bs ih =>
    rw [beDec_cons, List.length_cons, Nat.pow_succ]
    have hb : b.toNat < 256 := by have := b.toNat_lt; omega
    have h1 : b.toNat * 256 ^ bs.length ≤ 255 * 256 ^ bs.length :=
      Nat.mul_le_mul_right _ (by omega)
    omega

/-- Decoding an encoding gives the value modulo the width. -/
theorem beDec_beEnc (k v : Nat) : beDec (beEnc k v) = v % 256 ^ k := by
  induction k generalizing v with
  | zero => simp [beEnc, Nat.mod_one]
  | succ k ih =>
    rw [beEnc, beDec_cons, ih, beEnc_length]
    have h1 : (UInt8.ofNat (v / 256 ^ k)).toNat = (v / 256 ^ k) % 256 := by
      simp [UInt8.toNat_ofNat']
    rw [h1, Nat.mul_comm, Nat.add_comm, ← Nat.mod_mul, ← Nat.pow_succ]

theorem beDec_beEnc_of_lt {k v : Nat} (h : v < 256 ^ k) : beDec (beEnc k v) = v := by
  rw [beDec_beEnc, Nat.mod_eq_of_lt h]

/-- Only the value modulo the width matters to the encoder. -/
theorem beEnc_mod (k v m : Nat) (h : k ≤ m) : beEnc k (v % 256 ^ m) = beEnc k v := by
  induction k with
  | zero => rfl
  | succ k ih =>
    rw [beEnc, beEnc, ih (by omega)]
    congr 1
    apply UInt8.toNat_inj.mp
    simp only [UInt8.toNat_ofNat']
    have : m = k + 1 + (m - (k + 1)) := by omega
    rw [this, Nat.pow_add, Nat.pow_succ, Nat.mul_assoc, Nat.mod_mul_right_div_self]
    rw [Nat.mod_mul_right_mod]

/-- Encoding a decoded string gives the string back. -/
theorem beEnc_beDec (bs : Bytes) : beEnc bs.length (beDec bs) = bs := by
  induction bs with
  | nil => rfl
  | cons b bs ih =>
    rw [List.length_cons, beEnc, beDec_cons]
    have hlt := beDec_lt bs
    have hpos : 0 < 256 ^ bs.length := Nat.pow_pos (by omega)
    congr 1
    · rw [Nat.mul_comm, Nat.mul_add_div hpos, Nat.div_eq_of_lt hlt]
      simp
    · rw [← beEnc_mod _ _ bs.length (Nat.le_refl _), Nat.mul_comm, Nat.mul_add_mod,
        Nat.mod_eq_of_lt hlt, ih]

theorem beDec_inj {as bs : Bytes} (hl : as.length = bs.length) (h : beDec as = beDec bs) :
    as = bs := by
  rw [← beEnc_beDec as, ← beEnc_beDec bs, hl, h]

/-- `u32::to_be_bytes`. -/
def be32 (x : UInt32) : Bytes := beEnc 4 x.toNat

/-- `u16::to_be_bytes`. -/
def be16 (x : UInt16) : Bytes := beEnc 2 x.toNat

/-- `u64::to_be_bytes`. -/
def be64 (x : UInt64) : Bytes := beEnc 8 x.toNat

/-- `u32::from_be_bytes` (of a 4 byte string). -/
def u32OfBe (bs : Bytes) : UInt32 := UInt32.ofNat (beDec bs)

/-- `u16::from_be_bytes` (of a 2 byte string). -/
def u16OfBe (bs : Bytes) : UInt16 := UInt16.ofNat (beDec bs)

/-- `u64::from_be_bytes` (of an 8 byte string). -/
def u64OfBe (bs : Bytes) : UInt64 := UInt64.ofNat (beDec bs)

@[simp] theorem be32_length (x : UInt32) : (be32 x).length = 4 := by simp [be32]
@[simp] theorem be16_length (x : UInt16) : (be16 x).length = 2 := by simp [be16]
@[simp] theorem be64_length (x : UInt64) : (be64 x).length = 8 := by simp [be64]

@[simp] theorem u32OfBe_be32 (x : UInt32) : u32OfBe (be32 x) = x := by
  unfold u32OfBe be32
  rw [beDec_beEnc_of_lt (by have := x.toNat_lt; omega)]
  simp

@[simp] theorem u16OfBe_be16 (x : UInt16) : u16OfBe (be16 x) = x := by
  unfold u16OfBe be16
  rw [beDec_beEnc_of_lt (by have := x.toNat_lt; omega)]
  simp

@[simp] theorem u64OfBe_be64 (x : UInt64) : u64OfBe (be64 x) = x := by
  unfold u64OfBe be64
  rw [beDec_beEnc_of_lt (by have := x.toNat_lt; omega)]
  simp

theorem u32OfBe_toNat {bs : Bytes} (h : bs.length = 4) : (u32OfBe bs).toNat = beDec bs := by
  have := beDec_lt bs
  rw [h] at this
  simp only [u32OfBe, UInt32.toNat_ofNat']
  omega

theorem be32_u32OfBe {bs : Bytes} (h : bs.length = 4) : be32 (u32OfBe bs) = bs := by
  unfold be32
  rw [u32OfBe_toNat h, ← h, beEnc_beDec]

theorem be16_u16OfBe {bs : Bytes} (h : bs.length = 2) : be16 (u16OfBe bs) = bs := by
  have := beDec_lt bs
  rw [h] at this
  have h2 : (u16OfBe bs).toNat = beDec bs := by
    simp only [u16OfBe, UInt16.toNat_ofNat']
    omega
  unfold be16
  rw [h2, ← h, beEnc_beDec]

theorem be64_u64OfBe {bs : Bytes} (h : bs.length = 8) : be64 (u64OfBe bs) = bs := by
  have := beDec_lt bs
  rw [h] at this
  have h2 : (u64OfBe bs).toNat = beDec bs := by
    simp only [u64OfBe, UInt64.toNat_ofNat']
    omega
  unfold be64
  rw [h2, ← h, beEnc_beDec]

theorem be32_inj {x y : UInt32} (h : be32 x = be32 y) : x = y := by
  rw [← u32OfBe_be32 x, ← u32OfBe_be32 y, h]

theorem be16_inj {x y : UInt16} (h : be16 x = be16 y) : x = y := by
  rw [← u16OfBe_be16 x, ← u16OfBe_be16 y, h]

theorem be64_inj {x y : UInt64} (h : be64 x = be64 y) : x = y := by
  rw [← u64OfBe_be64 x, ← u64OfBe_be64 y, h]

/-- `s[off..off+len]` (only used where the Rust slice is known to be in range, or guarded). -/
def slice (s : Bytes) (off len : Nat) : Bytes := (s.drop off).take len

theorem slice_length_le (b : Bytes) (o n : Nat) : (slice b o n).length ≤ n := by
  simp [slice]; omega

theorem slice_length {s : Bytes} {off len : Nat} (h : off + len ≤ s.length) :
    (slice s off len).length = len := by
  simp [slice]; omega

end Tezos
