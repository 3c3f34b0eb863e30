import Verif.Nom
/-
Text conversions: decimal, hexadecimal, base58, fixed point numbers and the paging of messages.
-/
namespace Tezos

/-- Errors of a view: rust/zemu/src/ui/comm.rs 18-22 (`ViewError`), plus `panic` for an abort while
rendering. -/
inductive VErr where
  | unknown | noData | reject | panic
  deriving DecidableEq, Repr

/-- Bytes of an ASCII string. -/
def ascii (s : String) : Bytes := s.toList.map fun c => UInt8.ofNat c.toNat

/-- Digits of a number in base `b`, least significant first, `fuel` bounding how many. -/
def digitsLE (b : Nat) : Nat → Nat → List Nat
  | 0, _ => []
  | f + 1, n => if n = 0 then [] else (n % b) :: digitsLE b f (n / b)

/-- The external crate function `lexical_core::write` on an unsigned number (used as `itoa`): its decimal
digits in ASCII. -/
def decimal (n : Nat) : Bytes :=
  if n = 0 then [48] else (digitsLE 10 (n.log2 + 1) n).reverse.map fun d => UInt8.ofNat (48 + d)

/-- `lexical_core::write` on an `i32` given by its bits. -/
def decimalI32 (x : UInt32) : Bytes :=
  if x.toNat < 2 ^ 31 then decimal x.toNat else 45 :: decimal (2 ^ 32 - x.toNat)

/-- A hexadecimal digit in ASCII, lower case. -/
def hexDigit (n : Nat) : UInt8 := if n < 10 then UInt8.ofNat (48 + n) else UInt8.ofNat (87 + n)

/-- The external crate function `hex::encode_to_slice`. -/
def hexEncode (b : Bytes) : Bytes :=
  b.flatMap fun x => [hexDigit (x.toNat / 16), hexDigit (x.toNat % 16)]

/-- The Bitcoin base58 alphabet, used by the external crate `bs58`. -/
def base58Alphabet : List UInt8 :=
  [49, 50, 51, 52, 53, 54, 55, 56, 57, 65, 66, 67, 68, 69, 70, 71, 72, 74, 75, 76, 77, 78, 80, 81, 82, 83,
   84, 85, 86, 87, 88, 89, 90, 97, 98, 99, 100, 101, 102, 103, 104, 105, 106, 107, 109, 110, 111, 112, 113,
   114, 115, 116, 117, 118, 119, 120, 121, 122]

/-- The digit `d` of base58 in ASCII. -/
def base58Char (d : Nat) : UInt8 := base58Alphabet.getD d 0

/-- Value of a big-endian byte string. -/
def bytesValue (l : Bytes) : Nat := l.foldl (fun a b => a * 256 + b.toNat) 0

/-- The external crate function `bs58::encode`: one `1` for each leading zero byte, then the number in base
58, most significant digit first. -/
def base58 (l : Bytes) : Bytes :=
  List.replicate (l.takeWhile (· == 0)).length 49 ++
    (digitsLE 58 (8 * l.length) (bytesValue l)).reverse.map base58Char

/-- `bs58::encode(l).into(&mut [u8; cap]).expect(..)`: aborts when the text does not fit. -/
def base58Into (cap : Nat) (l : Bytes) : Except VErr Bytes :=
  if (base58 l).length ≤ cap then .ok (base58 l) else .error .panic

/-! ### Fixed point -/

/-- rust/app/src/handlers/utils.rs 230-232: `strlen`. -/
def strlen (s : Bytes) : Nat := (s.takeWhile (· != 0)).length

/-- `slice::copy_within(src..src + len, dst)`; `none` when it panics. -/
def copyWithin (s : Bytes) (src len dst : Nat) : Option Bytes :=
  if src + len ≤ s.length ∧ dst + len ≤ s.length then
    some (s.take dst ++ (s.drop src).take len ++ s.drop (dst + len))
  else none

/-- `s[a..].fill(x)` for `a ≤ s.len()`; `none` when it panics. -/
def fillFrom (s : Bytes) (a : Nat) (x : UInt8) : Option Bytes :=
  if a ≤ s.length then some (s.take a ++ List.replicate (s.length - a) x) else none

/-- `s[..a].fill(x)`; `none` when it panics. -/
def fillTo (s : Bytes) (a : Nat) (x : UInt8) : Option Bytes :=
  if a ≤ s.length then some (List.replicate a x ++ s.drop a) else none

inductive FpErr where
  | bufferFull | bufferTooShort | notDigit | panic
  deriving DecidableEq, Repr

/-- rust/app/src/handlers/utils.rs 267-281: scan for the first character that is not `0`, failing on a
character that is not a digit (only the characters up to the first non-zero digit are looked at). -/
def firstDigit : Bytes → Nat → Except FpErr (Option Nat)
  | [], _ => .ok none
  | c :: cs, i =>
    if c < 48 ∨ 57 < c then .error .notDigit
    else if c ≠ 48 then .ok (some i)
    else firstDigit cs (i + 1)

/-- Turn an impossible slice operation into an abort. -/
def orPanic {α : Type} : Option α → Except FpErr α
  | some a => .ok a
  | none => .error .panic

/-- rust/app/src/handlers/utils.rs 234-335: `intstr_to_fpstr_inplace`. The result is the returned subslice.
`num_chars - decimals` wraps in release builds when negative, and the following range then panics. -/
def intstrToFpstr (s : Bytes) (decimals : Nat) : Except FpErr Bytes := do
  let num := strlen s
  if num = s.length then .error .bufferFull
  else if s = [] then .error .bufferTooShort
  else do
    let (s, num) := if num = 0 then (48 :: s.drop 1, 1) else (s, num)
    let first ← firstDigit (s.take num) 0
    let (s, num) ← (match first with
      | some idx => do
        let s ← orPanic (copyWithin s idx (s.length - idx) 0)
        let s ← orPanic (fillFrom s (num - idx) 0)
        return (s, num - idx)
      | none => do
        let s ← orPanic (fillFrom s 1 0)
        return (s, num) : Except FpErr (Bytes × Nat))
    if decimals = 0 then return s.take (strlen s)
    else do
      let (s, num) ← (if num < decimals + 1 then do
          let padding := decimals - num + 1
          let s ← orPanic (copyWithin s 0 num padding)
          let s ← orPanic (fillTo s padding 48)
          return (s, strlen s)
        else return (s, num) : Except FpErr (Bytes × Nat))
      if num < decimals then .error .panic
      else do
        let point := num - decimals
        let s ← orPanic (copyWithin s point decimals (point + 1))
        if point < s.length then
          let s := s.set point 46
          return s.take (strlen s)
        else .error .panic

/-- rust/app/src/parser/operations/transfer.rs 306-317 and the same code for every amount and fee: write the
number in a buffer of `usize::FORMATTED_SIZE_DECIMAL + 2` = 12 bytes and convert it with 6 decimals. Errors
become `ViewError::Unknown`. -/
def amountText (n : Nat) : Except VErr Bytes :=
  match intstrToFpstr (decimal n ++ List.replicate (12 - (decimal n).length) 0) 6 with
  | .ok t => .ok t
  | .error .panic => .error .panic
  | .error _ => .error .unknown

/-! ### Paging -/

/-- The `k`-th of the non-overlapping chunks of `m` bytes of a message, if it exists (`chunks(m).nth(k)`). -/
def nthChunk (l : Bytes) (m k : Nat) : Option Bytes :=
  if k * m < l.length then some ((l.drop (k * m)).take m) else none

/-- rust/app/src/handlers/utils.rs 199-219: `handle_ui_message` with a buffer of `outLen` bytes: the text
written before the terminator, and the announced number of pages. An empty buffer aborts (the subtraction
wraps and the slice panics), and so does a buffer of one byte (chunks of size zero). -/
def handleUi (item : Bytes) (outLen : Nat) (page : UInt8) : Except VErr (Bytes × UInt8) :=
  if outLen ≤ 1 then .error .panic
  else
    let m := outLen - 1
    if m ≤ item.length then
      match nthChunk item m page.toNat with
      | none => .error .unknown
      | some chunk => .ok (chunk, 1 + UInt8.ofNat (item.length / m))
    else .ok (item, 1)

end Tezos
