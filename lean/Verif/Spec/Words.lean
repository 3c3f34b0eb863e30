import Verif.Bytes
/-
Specification of what passes between a host and its wallet besides the commands of the app: the operating system's
account of the running app, and the meaning of status words.
-/
namespace Spec
open Tezos (Bytes)

/-- The running app as the operating system describes it. -/
structure AppInfo where
  name : Bytes
  version : Bytes
  flags : Bytes

/-- Each part fits behind a length of one byte, and the texts are ASCII. -/
structure AppInfo.Proper (i : AppInfo) : Prop where
  name : i.name.length < 256 ∧ ∀ c ∈ i.name, c.toNat < 128
  version : i.version.length < 256 ∧ ∀ c ∈ i.version, c.toNat < 128
  flags : i.flags.length < 256

/-- The answer of the operating system, in its format 1: name, version and flags, each behind its length, and the status
word of success. -/
def AppInfo.answer (i : AppInfo) : Bytes :=
  [1] ++ UInt8.ofNat i.name.length :: i.name ++ UInt8.ofNat i.version.length :: i.version ++
    UInt8.ofNat i.flags.length :: i.flags ++ [0x90, 0x00]

/-- The status words of the app (`ApduError`), and in which words a user should be told of them. -/
def statusTexts : List (Nat × String) :=
  [(0x6400, "Execution Error"), (0x6700, "Wrong Length"), (0x6982, "Empty Buffer"),
   (0x6983, "Output buffer too small"), (0x6984, "Data is invalid"), (0x6985, "Conditions not satisfied"),
   (0x6986, "Transaction rejected"), (0x6a80, "Bad key handle"), (0x6b00, "Invalid P1/P2"),
   (0x6d00, "Instruction not supported"), (0x6e00, "App does not seem to be open"), (0x6f00, "Unknown error"),
   (0x6f01, "Sign/verify error"), (0x9000, "No errors"), (0x9001, "Device is busy")]

end Spec
