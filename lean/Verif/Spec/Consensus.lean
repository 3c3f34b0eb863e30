import Verif.Bytes
/-
Specification, independent of the model: what a consensus message is about, read from the signed bytes
at fixed offsets of the Tezos binary formats, and the order in which a baker may sign.

Offsets are counted from the first byte of the signed message (the "magic byte").

Emmy block (0x01) and Tenderbake block (0x11):
  magic 1 | chain id 4 | level 4 | proto 1 | predecessor 32 | timestamp 8 | validation pass 1 |
  operations hash 32 | fitness size 4 | fitness: 4 bytes, version byte, rest
  so: level at 5, fitness size at 83, fitness from 87, fitness version at 91; the Tenderbake round is the
  last 4 bytes of the fitness.
Emmy endorsement (0x02): magic 1 | chain id 4 | branch 32 | tag 0 | level 4
Tenderbake preendorsement (0x12) and endorsement (0x13):
  magic 1 | chain id 4 | branch 32 | tag 20 or 21 | slot 2 | level 4 | round 4 | payload hash 32
-/
namespace Spec
open Tezos (Bytes slice beDec)

/-- What a consensus message commits its signer to. `family` is 0 for Emmy and 1 for Tenderbake; `rank`
is 0 for a block, 1 for a preendorsement, 2 for an endorsement; Emmy has no rounds (round 0). -/
structure Item where
  family : Nat
  level : Nat
  round : Nat
  rank : Nat
  deriving DecidableEq, Repr

/-- The signing order: lexicographic on family, level, round, rank. -/
def Item.lt (a b : Item) : Prop :=
  a.family < b.family ∨
  (a.family = b.family ∧ a.level < b.level) ∨
  (a.family = b.family ∧ a.level = b.level ∧ a.round < b.round) ∨
  (a.family = b.family ∧ a.level = b.level ∧ a.round = b.round ∧ a.rank < b.rank)

instance (a b : Item) : Decidable (Item.lt a b) := by unfold Item.lt; infer_instance

/-- Big-endian number stored in the 4 bytes from `off`. -/
def u32At (m : Bytes) (off : Nat) : Nat := beDec (slice m off 4)

/-- Whether `m` carries one of the five consensus magic bytes. -/
def isConsensusMagic (m : Bytes) : Bool :=
  match m[0]? with
  | some b => b = 0x01 || b = 0x02 || b = 0x11 || b = 0x12 || b = 0x13
  | none => false

/-- The item a well-formed consensus message is about; `none` if `m` is not one. -/
def consensusItem (m : Bytes) : Option Item :=
  match m[0]? with
  | none => none
  | some magic =>
    if magic = 0x01 then
      if 87 ≤ m.length ∧ 5 ≤ u32At m 83 ∧ 87 + u32At m 83 ≤ m.length ∧
          (m[91]? = some 0 ∨ m[91]? = some 1) then
        some ⟨0, u32At m 5, 0, 0⟩
      else none
    else if magic = 0x11 then
      if 87 ≤ m.length ∧ 9 ≤ u32At m 83 ∧ 87 + u32At m 83 ≤ m.length ∧ m[91]? = some 2 then
        some ⟨1, u32At m 5, u32At m (87 + u32At m 83 - 4), 0⟩
      else none
    else if magic = 0x02 then
      if 42 ≤ m.length ∧ m[37]? = some 0 then some ⟨0, u32At m 38, 0, 2⟩ else none
    else if magic = 0x12 then
      if 80 ≤ m.length ∧ m[37]? = some 20 then some ⟨1, u32At m 40, u32At m 44, 1⟩ else none
    else if magic = 0x13 then
      if 80 ≤ m.length ∧ m[37]? = some 21 then some ⟨1, u32At m 40, u32At m 44, 2⟩ else none
    else none

theorem Item.lt_irrefl (a : Item) : ¬ Item.lt a a := by unfold Item.lt; omega

theorem Item.lt_trans {a b c : Item} (h1 : Item.lt a b) (h2 : Item.lt b c) : Item.lt a c := by
  unfold Item.lt at *; omega

theorem Item.lt_total (a b : Item) : Item.lt a b ∨ a = b ∨ Item.lt b a := by
  rcases a with ⟨f, l, r, k⟩
  rcases b with ⟨f', l', r', k'⟩
  simp only [Item.lt, Item.mk.injEq]
  omega

end Spec
