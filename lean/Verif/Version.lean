import Verif.Device
/-
What the macro `version!` makes of the file with the version when the app is built: rust/app-derive/src/version.rs.
Texts are lists of characters. Not modelled: finding and reading the file; the generated Rust tokens, which declare one
constant for each definition.
-/
namespace Tezos

/-- `char::is_whitespace`: the characters with the Unicode property White_Space. -/
def isSpace (c : Char) : Bool :=
  let n := c.toNat
  (9 ≤ n && n ≤ 13) || n == 0x20 || n == 0x85 || n == 0xA0 || n == 0x1680 || (0x2000 ≤ n && n ≤ 0x200A) ||
    n == 0x2028 || n == 0x2029 || n == 0x202F || n == 0x205F || n == 0x3000

/-- `str::lines`, simplified: a carriage return before the end of a line is kept and an empty line after the last line
feed is added. The one is trimmed and the other ignored afterwards. -/
def splitAtNewlines : List Char → List (List Char)
  | [] => [[]]
  | c :: cs =>
    if c = '\n' then [] :: splitAtNewlines cs
    else
      match splitAtNewlines cs with
      | [] => [[c]]
      | l :: ls => (c :: l) :: ls

/-- `str::trim`. -/
def trimSpaces (l : List Char) : List Char := ((l.dropWhile isSpace).reverse.dropWhile isSpace).reverse

/-- The loop of `u8::from_str`: the digits, with a value so far; `none` is an invalid digit or an overflow. -/
def parseDigits : Nat → List Char → Option Nat
  | acc, [] => some acc
  | acc, c :: cs =>
    if '0' ≤ c ∧ c ≤ '9' then
      let v := acc * 10 + (c.toNat - 48)
      if v < 256 then parseDigits v cs else none
    else none

/-- `str::parse::<u8>`: a sign `+` may come first. -/
def parseU8 (l : List Char) : Option UInt8 :=
  match l with
  | [] => none
  | ['+'] => none
  | '+' :: cs => (parseDigits 0 cs).map UInt8.ofNat
  | cs => (parseDigits 0 cs).map UInt8.ofNat

/-- rust/app-derive/src/version.rs 23-26: `Definition`. -/
structure Definition where
  name : List Char
  value : UInt8
  deriving DecidableEq, Repr

/-- rust/app-derive/src/version.rs 82-111: one line that is not ignored; `none` is an error. -/
def readDefinition (l : List Char) : Option Definition :=
  match l.span (· ≠ '=') with
  | (name, _ :: value) => (parseU8 value).map (⟨name, ·⟩)
  | (_, []) => none

/-- rust/app-derive/src/version.rs 74-112: all lines, up to the first that fails. -/
def readDefinitions : List (List Char) → Option (List Definition)
  | [] => some []
  | l :: ls =>
    let t := trimSpaces l
    if t = [] then readDefinitions ls
    else if t.head? = some '#' then readDefinitions ls
    else
      match readDefinition t with
      | none => none
      | some d =>
        match readDefinitions ls with
        | none => none
        | some ds => some (d :: ds)

/-- rust/app-derive/src/version.rs 50-119: `retrieve_data`, on the contents of the file. -/
def retrieveVersion (text : List Char) : Option (List Definition) := readDefinitions (splitAtNewlines text)

/-- The value of a constant. -/
def constant (ds : List Definition) (name : String) : Option UInt8 :=
  (ds.find? (·.name == name.toList)).map Definition.value

/-- rust/app-derive/src/version.rs 28-48 and rust/app/src/handlers/version.rs 20-37: the build succeeds if all names can
be declared (`canDeclare`: an identifier that is not a keyword) once, and the three used ones are among them. -/
def buildVersion (canDeclare : List Char → Bool) (text : List Char) : Option (UInt8 × UInt8 × UInt8) :=
  match retrieveVersion text with
  | none => none
  | some ds =>
    if ds.all (fun d => canDeclare d.name) ∧ (ds.map Definition.name).Nodup then
      match constant ds "APPVERSION_M", constant ds "APPVERSION_N", constant ds "APPVERSION_P" with
      | some m, some n, some p => some (m, n, p)
      | _, _, _ => none
    else none

/-- rust/app/Makefile.version 1-6. -/
def versionFile : List Char :=
  "# Major\nAPPVERSION_M=3\n# Minor\nAPPVERSION_N=1\n# Patch\nAPPVERSION_P=2\n".toList

end Tezos
