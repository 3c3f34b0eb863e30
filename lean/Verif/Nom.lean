import Verif.Bytes
/-
The nom 6 combinators used by the parsers (`nom::bytes::complete::{take,tag}`,
`nom::number::complete::{le_u8,be_u16,be_u32,be_u64}`).

Simplification: the error kind carried by `nom::Err<ParserError>` is not modelled, because every
caller in the app maps any parser error to one fixed status (e.g. rust/app/src/handlers/baking.rs
201-202 and 353, rust/app/src/handlers/signing.rs 95-105). A Rust panic inside a parser is a separate
outcome.
-/
namespace Tezos

/-- Why a parser did not return a value: a `nom::Err`, or a Rust panic. -/
inductive PErr where
  | err
  | panic
  deriving DecidableEq, Repr

/- Result of a parser (`nom::IResult`): remaining input and value, in nom's order. -/
notation "PRes " α:max => Except PErr (Bytes × α)

/-- `nom::bytes::complete::take(n)`. -/
def nTake (n : Nat) (i : Bytes) : PRes Bytes :=
  if n ≤ i.length then .ok (i.drop n, i.take n) else .error .err

/-- `nom::number::complete::le_u8` (identical to `be_u8`). -/
def nU8 : Bytes → PRes UInt8
  | b :: r => .ok (r, b)
  | [] => .error .err

/-- `nom::number::complete::be_u16`. -/
def nBeU16 (i : Bytes) : PRes UInt16 := do
  let (r, x) ← nTake 2 i
  return (r, u16OfBe x)

/-- `nom::number::complete::be_u32` (and `be_i32`, whose bits are the same). -/
def nBeU32 (i : Bytes) : PRes UInt32 := do
  let (r, x) ← nTake 4 i
  return (r, u32OfBe x)

/-- `nom::number::complete::be_u64` (and `be_i64`). -/
def nBeU64 (i : Bytes) : PRes UInt64 := do
  let (r, x) ← nTake 8 i
  return (r, u64OfBe x)

/-- `nom::bytes::complete::tag(&[b])`. -/
def nTag1 (t : UInt8) : Bytes → PRes UInt8
  | b :: r => if b = t then .ok (r, b) else .error .err
  | [] => .error .err

/-! Inversion and round-trip lemmas. -/

theorem ebind_ok {ε α β : Type} {x : Except ε α} {f : α → Except ε β} {b : β} :
    (x >>= f) = .ok b ↔ ∃ a, x = .ok a ∧ f a = .ok b := by
  cases x <;> simp [bind, Except.bind]

@[simp] theorem ebind_ok_left {ε α β : Type} (a : α) (f : α → Except ε β) :
    ((Except.ok a : Except ε α) >>= f) = f a := rfl

@[simp] theorem ebind_error_left {ε α β : Type} (e : ε) (f : α → Except ε β) :
    ((Except.error e : Except ε α) >>= f) = .error e := rfl

theorem ebind_error {ε α β : Type} {x : Except ε α} {f : α → Except ε β} {e : ε} :
    (x >>= f) = .error e ↔ x = .error e ∨ ∃ a, x = .ok a ∧ f a = .error e := by
  cases x <;> simp [bind, Except.bind]

theorem epure_ok {ε α : Type} {a b : α} : (pure a : Except ε α) = .ok b ↔ a = b := by
  simp [pure, Except.pure]

theorem epure_error {ε α : Type} {a : α} {e : ε} : (pure a : Except ε α) = .error e ↔ False := by
  simp [pure, Except.pure]

theorem ebind_assoc {ε α β γ : Type} (x : Except ε α) (f : α → Except ε β) (g : β → Except ε γ) :
    (x >>= fun a => f a >>= g) = ((x >>= f) >>= g) := by
  cases x <;> rfl

@[simp] theorem ePure {ε α : Type} (a : α) : (pure a : Except ε α) = .ok a := rfl

theorem nTake_ok {n : Nat} {i r x : Bytes} :
    nTake n i = .ok (r, x) ↔ i = x ++ r ∧ x.length = n := by
  unfold nTake
  split
  · rename_i h
    simp only [Except.ok.injEq, Prod.mk.injEq]
    constructor
    · rintro ⟨rfl, rfl⟩
      simp [List.take_append_drop, h]
    · rintro ⟨rfl, rfl⟩
      simp
  · rename_i h
    simp only [reduceCtorEq, false_iff, not_and]
    rintro rfl hx
    simp at h
    omega

@[simp] theorem nTake_append (x r : Bytes) : nTake x.length (x ++ r) = .ok (r, x) :=
  nTake_ok.mpr ⟨rfl, rfl⟩

theorem nTake_append' {n : Nat} {x r : Bytes} (h : x.length = n) :
    nTake n (x ++ r) = .ok (r, x) := nTake_ok.mpr ⟨rfl, h⟩

theorem nTake_error {n : Nat} {i : Bytes} {e : PErr} :
    nTake n i = .error e ↔ e = .err ∧ i.length < n := by
  unfold nTake
  split
  · simp; omega
  · simp only [Except.error.injEq]
    constructor
    · rintro rfl; exact ⟨rfl, by omega⟩
    · rintro ⟨rfl, _⟩; rfl

theorem nU8_ok {i r : Bytes} {b : UInt8} : nU8 i = .ok (r, b) ↔ i = b :: r := by
  cases i <;> simp [nU8]
  constructor <;> rintro ⟨rfl, rfl⟩ <;> simp

@[simp] theorem nU8_cons (b : UInt8) (r : Bytes) : nU8 (b :: r) = .ok (r, b) := rfl

theorem nU8_error {i : Bytes} {e : PErr} : nU8 i = .error e ↔ e = .err ∧ i = [] := by
  cases i <;> simp [nU8, eq_comm]

theorem nBeU32_ok {i r : Bytes} {x : UInt32} : nBeU32 i = .ok (r, x) ↔ i = be32 x ++ r := by
  unfold nBeU32
  simp only [ebind_ok, Prod.exists, ePure, Except.ok.injEq, Prod.mk.injEq, nTake_ok]
  constructor
  · rintro ⟨r', y, ⟨rfl, hl⟩, rfl, rfl⟩
    rw [be32_u32OfBe hl]
  · rintro rfl
    exact ⟨r, be32 x, ⟨rfl, by simp⟩, rfl, by simp⟩

@[simp] theorem nBeU32_append (x : UInt32) (r : Bytes) : nBeU32 (be32 x ++ r) = .ok (r, x) :=
  nBeU32_ok.mpr rfl

theorem nBeU32_error {i : Bytes} {e : PErr} :
    nBeU32 i = .error e ↔ e = .err ∧ i.length < 4 := by
  unfold nBeU32
  simp [ebind_error, nTake_error]

theorem nBeU16_ok {i r : Bytes} {x : UInt16} : nBeU16 i = .ok (r, x) ↔ i = be16 x ++ r := by
  unfold nBeU16
  simp only [ebind_ok, Prod.exists, ePure, Except.ok.injEq, Prod.mk.injEq, nTake_ok]
  constructor
  · rintro ⟨r', y, ⟨rfl, hl⟩, rfl, rfl⟩
    rw [be16_u16OfBe hl]
  · rintro rfl
    exact ⟨r, be16 x, ⟨rfl, by simp⟩, rfl, by simp⟩

@[simp] theorem nBeU16_append (x : UInt16) (r : Bytes) : nBeU16 (be16 x ++ r) = .ok (r, x) :=
  nBeU16_ok.mpr rfl

theorem nBeU16_error {i : Bytes} {e : PErr} :
    nBeU16 i = .error e ↔ e = .err ∧ i.length < 2 := by
  unfold nBeU16
  simp [ebind_error, nTake_error]

theorem nBeU64_ok {i r : Bytes} {x : UInt64} : nBeU64 i = .ok (r, x) ↔ i = be64 x ++ r := by
  unfold nBeU64
  simp only [ebind_ok, Prod.exists, ePure, Except.ok.injEq, Prod.mk.injEq, nTake_ok]
  constructor
  · rintro ⟨r', y, ⟨rfl, hl⟩, rfl, rfl⟩
    rw [be64_u64OfBe hl]
  · rintro rfl
    exact ⟨r, be64 x, ⟨rfl, by simp⟩, rfl, by simp⟩

@[simp] theorem nBeU64_append (x : UInt64) (r : Bytes) : nBeU64 (be64 x ++ r) = .ok (r, x) :=
  nBeU64_ok.mpr rfl

theorem nBeU64_error {i : Bytes} {e : PErr} :
    nBeU64 i = .error e ↔ e = .err ∧ i.length < 8 := by
  unfold nBeU64
  simp [ebind_error, nTake_error]

theorem nTag1_ok {t b : UInt8} {i r : Bytes} :
    nTag1 t i = .ok (r, b) ↔ i = t :: r ∧ b = t := by
  cases i with
  | nil => simp [nTag1]
  | cons a as =>
    simp only [nTag1]
    split
    · rename_i h; subst h
      simp only [Except.ok.injEq, Prod.mk.injEq, List.cons.injEq, true_and]
      constructor <;> rintro ⟨rfl, rfl⟩ <;> simp
    · rename_i h
      simp only [reduceCtorEq, List.cons.injEq, false_iff]
      rintro ⟨⟨rfl, _⟩, _⟩
      exact h rfl

@[simp] theorem nTag1_cons (t : UInt8) (r : Bytes) : nTag1 t (t :: r) = .ok (r, t) := by
  simp [nTag1]

theorem nTag1_error {t : UInt8} {i : Bytes} {e : PErr} :
    nTag1 t i = .error e ↔ e = .err ∧ ∀ r, i ≠ t :: r := by
  cases i with
  | nil => simp [nTag1, eq_comm]
  | cons a as =>
    simp only [nTag1]
    split
    · rename_i h; subst h
      simp
    · rename_i h
      simp only [Except.error.injEq, ne_eq, List.cons.injEq, not_and]
      constructor
      · rintro rfl
        exact ⟨rfl, fun r h' => absurd h' h⟩
      · rintro ⟨rfl, _⟩; rfl

end Tezos
