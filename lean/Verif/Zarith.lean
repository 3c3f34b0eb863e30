import Verif.Nom
/-
Variable-length numbers: rust/app/src/parser.rs 55-134.
-/
namespace Tezos

/-- rust/app/src/parser.rs 58-61: `Zarith`, the bytes of the number and, if a sign was asked for, whether
it is negative. -/
structure Zarith where
  bytes : Bytes
  isNegative : Option Bool
  deriving DecidableEq, Repr

/-- rust/app/src/parser.rs 69-85: `from_bytes`. `take_till` (complete) returns the longest prefix of bytes
with the top bit set; one more byte is taken. -/
def Zarith.fromBytes (wantSign : Bool) (i : Bytes) : PRes Zarith := do
  let n := (i.takeWhile (fun b => b &&& 0x80 != 0)).length
  let (rem, bytes) ← nTake (n + 1) i
  return (rem, ⟨bytes, if wantSign then some (bytes.headD 0 &&& 0x40 != 0) else none⟩)

/-- The loop of rust/app/src/parser.rs 94-134 from accumulator `out`, `shift` and `isFirst`. `nBits` is the
width of the integer type; `<<` on it drops the bits beyond the width (the guard keeps the shift amount
below the width, so no overflow check can fire). -/
def Zarith.readLoop (nBits : Nat) (signed : Bool) : Bool → Nat → Nat → Bytes → Option Nat
  | _, out, _, [] => some out
  | isFirst, out, shift, b :: r =>
    let signedFirst : Bool := isFirst && signed
    let mask : UInt8 := if signedFirst then 0x3F else 0x7F
    let shiftAdd := if signedFirst then 6 else 7
    let isFirst' := if signedFirst then false else isFirst
    if shift + shiftAdd > nBits then none
    else
      Zarith.readLoop nBits signed isFirst'
        (out ||| (((b &&& mask).toNat <<< shift) % 2 ^ nBits)) (shift + shiftAdd) r

/-- rust/app/src/parser.rs 94-134: `read_as::<N>`, `nBits` being the width of `N`. -/
def Zarith.readAs (nBits : Nat) (z : Zarith) : Option (Bool × Nat) :=
  (Zarith.readLoop nBits z.isNegative.isSome true 0 0 z.bytes).map (fun out => (z.isNegative.getD false, out))

/-- Width of `usize` on the devices (ARM Cortex-M, 32 bits). -/
def usizeBits : Nat := 32

end Tezos
