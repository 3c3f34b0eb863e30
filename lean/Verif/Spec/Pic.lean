import Verif.Pic
/-
What the linker and the installer leave in memory, for C109.
-/
namespace Spec
open Tezos

/-- The image is installed where it was linked, or clear of there. -/
def Apart (m : Placed) : Prop :=
  m.load = m.link ∨ m.load + m.image.length ≤ m.link ∨ m.link + m.image.length ≤ m.load

/-- The bytes `t` are in the image, from its place `o` on. -/
def Has (m : Placed) (o : Nat) (t : Bytes) : Prop := ∃ front back, m.image = front ++ t ++ back ∧ front.length = o

/-- An address of the place `o` of the image: the one it was linked for, which is what pointers stored in the image are,
or the one where it is, which is what code computes relative to itself. -/
def Names (m : Placed) (a o : Nat) : Prop := a = m.link + o ∨ a = m.load + o

/-- A 32-bit word in memory. -/
def le32 (n : Nat) : Bytes :=
  [UInt8.ofNat n, UInt8.ofNat (n / 256), UInt8.ofNat (n / 65536), UInt8.ofNat (n / 16777216)]

/-- At the place `o` of the image is a reference to the bytes `t`, as the linker left it. -/
def HasRef (m : Placed) (o : Nat) (t : Bytes) : Prop :=
  ∃ p, Has m p t ∧ m.link + p < 2 ^ 32 ∧ t.length < 2 ^ 32 ∧ Has m o (le32 (m.link + p) ++ le32 t.length)

/-- From the place `o` of the image on is the table of bakers. -/
def HasTable (m : Placed) (lay : Placed.Layout) (o : Nat) (table : List Baker) : Prop :=
  ∀ i b, table[i]? = some b →
    HasRef m (o + i * lay.size + lay.pfx) b.pfx ∧ HasRef m (o + i * lay.size + lay.hash) b.hash ∧
      HasRef m (o + i * lay.size + lay.name) b.name

/-- From the place `o` of the image on is a table of methods, those of a type `τ` of views; `code` says which method of
which type is at which place of the image. -/
def HasMethods {τ : Type} (m : Placed) (code : Nat → Option (τ × Placed.Method)) (pos : Placed.Method → Nat) (o : Nat)
    (ty : τ) : Prop :=
  ∀ f, ∃ p, p < m.image.length ∧ m.link + p < 2 ^ 32 ∧ code p = some (ty, f) ∧ Has m (o + pos f) (le32 (m.link + p))

/-- Memory that is the app's RAM: neither where the image is nor where it was linked. -/
def InRam (m : Placed) (a n : Nat) : Prop :=
  ∀ x, a ≤ x → x < a + n → ¬ m.inLoad x ∧ ¬ m.inLink x ∧ (m.rest x).isSome

end Spec
