import Verif.Codes
/-
BIP32 derivation paths: rust/bolos-common/src/bip32.rs.

`BIP32Path<LEN>` is a length byte and an array of LEN components of which the first `len` are
meaningful and the others zero (rust/bolos-common/src/bip32.rs 20-23, 96-104), so the derived `PartialEq` is equality of
the component lists; the model is the component list.
-/
namespace Tezos

abbrev Path := List UInt32

/-- rust/bolos-common/src/bip32.rs 27-34: `BIP32PathError`. -/
inductive Bip32Err where
  | zeroLength | notEnoughData | tooMuchData
  deriving DecidableEq, Repr

/-- `chunks(4)` then `u32::from_be_bytes` of each chunk (rust/bolos-common/src/bip32.rs 84-94). The input length is a
multiple of 4 there (checked at 69), so a shorter last chunk cannot occur; it is dropped here. -/
def readComponents : Bytes → List UInt32
  | a :: b :: c :: d :: r => u32OfBe [a, b, c, d] :: readComponents r
  | _ => []

/-- rust/bolos-common/src/bip32.rs 61-105: `BIP32Path::<LEN>::read`. -/
def Path.read (LEN : Nat) (input : Bytes) : Except Bip32Err Path :=
  match input with
  | [] => .error .zeroLength
  | n :: body =>
    let blen := body.length
    let len := n.toNat
    if blen = 0 then .error .zeroLength
    else if blen % 4 ≠ 0 then .error .notEnoughData
    else if len = 0 then .error .zeroLength
    else if len > LEN ∨ blen / 4 > len then .error .tooMuchData
    else if blen / 4 < len then .error .notEnoughData
    else .ok ((readComponents body).take len)

/-- Outcome of `BIP32Path::new`: it can also abort on an array index out of range. -/
inductive NewRes where
  | ok (p : Path)
  | err (e : Bip32Err)
  | panic
  deriving DecidableEq, Repr

/-- The loop of rust/bolos-common/src/bip32.rs 42-48 from index `i` with the components collected so far. -/
def Path.newLoop (LEN : Nat) : Nat → Path → List UInt32 → NewRes
  | i, acc, [] => if i = 0 then .err .zeroLength else .ok acc
  | i, acc, c :: cs =>
    if i > LEN then .err .tooMuchData
    else if i < LEN then Path.newLoop LEN (i + 1) (acc ++ [c]) cs
    else .panic  -- `components_array[i]` with `i = LEN`

/-- rust/bolos-common/src/bip32.rs 38-58: `BIP32Path::<LEN>::new`. The stored length is `len as u8`;
LEN is at most 10 in the app, the model keeps the full length. -/
def Path.new (LEN : Nat) (cs : List UInt32) : NewRes := Path.newLoop LEN 0 [] cs

/-- rust/bolos-common/src/bip32.rs 116-125: `serialize`. -/
def Path.serialize (p : Path) : Bytes := UInt8.ofNat p.length :: p.flatMap be32

theorem readComponents_be32 (x : UInt32) (r : Bytes) :
    readComponents (be32 x ++ r) = x :: readComponents r := by
  have h := be32_length x
  match hb : be32 x, h with
  | [a, b, c, d], _ =>
    simp only [List.cons_append, List.nil_append, readComponents]
    rw [← hb, u32OfBe_be32]

theorem readComponents_flatMap (p : Path) : readComponents (p.flatMap be32) = p := by
  induction p with
  | nil => rfl
  | cons x xs ih => simp [List.flatMap_cons, readComponents_be32, ih]

theorem flatMap_be32_length (p : Path) : (p.flatMap be32).length = 4 * p.length := by
  induction p with
  | nil => rfl
  | cons x xs ih => simp [List.flatMap_cons, ih]; omega

theorem readComponents_length (b : Bytes) (h : b.length % 4 = 0) :
    (readComponents b).length = b.length / 4 := by
  fun_induction readComponents b with
  | case1 a b c d r ih =>
    simp only [List.length_cons] at h ⊢
    rw [ih (by omega)]; omega
  | case2 b h' =>
    match b, h with
    | [], _ => rfl
    | [_], h => simp at h
    | [_, _], h => simp at h
    | [_, _, _], h => simp at h
    | a :: b :: c :: d :: r, _ => exact absurd rfl (h' a b c d r)

theorem flatMap_readComponents (b : Bytes) (h : b.length % 4 = 0) :
    (readComponents b).flatMap be32 = b := by
  fun_induction readComponents b with
  | case1 a b c d r ih =>
    simp only [List.length_cons] at h
    simp only [List.flatMap_cons]
    rw [ih (by omega), be32_u32OfBe (by simp)]
    rfl
  | case2 b h' =>
    match b, h with
    | [], _ => rfl
    | [_], h => simp at h
    | [_, _], h => simp at h
    | [_, _, _], h => simp at h
    | a :: b :: c :: d :: r, _ => exact absurd rfl (h' a b c d r)

/-- Exactly which inputs are accepted, and what they decode to. -/
theorem Path.read_ok {LEN : Nat} {i : Bytes} {p : Path} :
    Path.read LEN i = .ok p ↔
      1 ≤ p.length ∧ p.length ≤ LEN ∧ p.length < 256 ∧ i = UInt8.ofNat p.length :: p.flatMap be32 := by
  constructor
  · intro h
    unfold Path.read at h
    match i with
    | [] => simp at h
    | n :: body =>
      simp only at h
      split at h; · simp at h
      split at h; · simp at h
      split at h; · simp at h
      split at h; · simp at h
      split at h; · simp at h
      rename_i h1 h2 h3 h4 h5
      simp only [Except.ok.injEq] at h
      have hm : body.length % 4 = 0 := by omega
      have hl := readComponents_length body hm
      have hlen : (readComponents body).length = n.toNat := by omega
      have : (readComponents body).take n.toNat = readComponents body := by
        rw [List.take_of_length_le]; omega
      rw [this] at h
      subst h
      have hn := n.toNat_lt
      refine ⟨by omega, by omega, by omega, ?_⟩
      rw [hlen, flatMap_readComponents body hm]
      simp
  · rintro ⟨h1, h2, h3, rfl⟩
    unfold Path.read
    have hl := flatMap_be32_length p
    have hn : (UInt8.ofNat p.length).toNat = p.length := by
      simp only [UInt8.toNat_ofNat']; omega
    simp only [hn, hl]
    rw [if_neg (by omega), if_neg (by omega), if_neg (by omega), if_neg (by omega),
      if_neg (by omega), readComponents_flatMap, List.take_length]

end Tezos
