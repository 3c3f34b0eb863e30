import Verif.Client
/-
The JavaScript client library, continued: what it makes of the operating system's answer about the running app, and the
texts it gives for status words.
-/
namespace Tezos

/-! ### The running app -/

/-- The fields of the object `getAppInfo` returns. A number read past the end of the answer is `undefined` in
JavaScript, here `none`. -/
structure AppInfoBody where
  appName : Bytes
  appVersion : Bytes
  flagLen : Option UInt8
  flagsValue : Option UInt8
  flagRecovery : Bool
  flagSignedMcuCode : Bool
  flagOnboarded : Bool
  flagPinValidated : Bool
  deriving DecidableEq, Repr

/-- `toString('ascii')` of a buffer: Node clears the highest bit of every byte. -/
def asciiText (b : Bytes) : Bytes := b.map (· &&& 0x7f)

/-- js/src/index.ts 192-207: the object built from name, version and flags. In JavaScript `undefined & 1` is 0. -/
def appInfoBody (appName appVersion : Bytes) (flagLen flagsValue : Option UInt8) : AppInfoBody :=
  let flags := flagsValue.getD 0
  { appName := appName
    appVersion := appVersion
    flagLen := flagLen
    flagsValue := flagsValue
    flagRecovery := flags &&& 1 ≠ 0
    flagSignedMcuCode := flags &&& 2 ≠ 0
    flagOnboarded := flags &&& 4 ≠ 0
    flagPinValidated := flags &&& 128 ≠ 0 }

/-- js/src/index.ts 169-190: reading the answer, which has at least the two bytes of the status word. If the length of
the version lies past the end, the offsets after it are `NaN`, and what is read there is empty or `undefined`. -/
def readAppInfo (r : Bytes) : AppInfoBody :=
  if r.getD 0 0 ≠ 1 then appInfoBody [0x65, 0x72, 0x72] [0x65, 0x72, 0x72] (some 0) (some 0)
  else
    let n := (r.getD 1 0).toNat
    let name := asciiText (slice r 2 n)
    match r[2 + n]? with
    | none => appInfoBody name [] none none
    | some v =>
      let at' := 2 + n + 1 + v.toNat
      appInfoBody name (asciiText (slice r (2 + n + 1) v.toNat)) r[at']? r[at' + 1]?

/-- js/src/index.ts 162-209: `getAppInfo`, from the answer `r` of the operating system to the command it is sent
(class 0xb0, instruction 0x01); the error texts set at 176-177 are not used. The transport accepts 0x9000 only. -/
def getAppInfo (r : Bytes) : Response AppInfoBody :=
  if r.length < 2 then ⟨0xffff, none⟩
  else if statusOf r = 0x9000 then ⟨statusOf r, some (readAppInfo r)⟩ else ⟨statusOf r, none⟩

/-! ### Texts for status words -/

/-- js/src/common.ts 68-116: `ERROR_DESCRIPTION`, with the codes of `LedgerError`. -/
def errorDescriptions : List (Nat × String) :=
  [(1, "U2F: Unknown"),
   (2, "U2F: Bad request"),
   (3, "U2F: Configuration unsupported"),
   (4, "U2F: Device Ineligible"),
   (5, "U2F: Timeout"),
   (14, "Timeout"),
   (0x9000, "No errors"),
   (0x9001, "Device is busy"),
   (0x6802, "Error deriving keys"),
   (0x6400, "Execution Error"),
   (0x6700, "Wrong Length"),
   (0x6982, "Empty Buffer"),
   (0x6983, "Output buffer too small"),
   (0x6984, "Data is invalid"),
   (0x6985, "Conditions not satisfied"),
   (0x6986, "Transaction rejected"),
   (0x6a80, "Bad key handle"),
   (0x6b00, "Invalid P1/P2"),
   (0x6d00, "Instruction not supported"),
   (0x6e00, "App does not seem to be open"),
   (0x6f00, "Unknown error"),
   (0x6f01, "Sign/verify error")]

/-- js/src/common.ts 118-121: `errorCodeToString`. -/
def errorCodeToString (code : Nat) : String :=
  match errorDescriptions.lookup code with
  | some text => text
  | none => "Unknown Status Code: " ++ toString code

/-- The field `errorMessage` of the object a call returns (js/src/index.ts 69 and alike, js/src/common.ts 133). For
errors of the transport other than a status word, and for signing, where the data of the answer is added to it
(js/src/index.ts 285-291), it is not modelled. -/
def Response.errorMessage {α : Type} (r : Response α) : String := errorCodeToString r.returnCode

end Tezos
