import Verif.Bytes
/-
The JavaScript client library, js/src: what it sends to the device and what it makes of the answers.

The device is not in sight here: a call of the library is a program that sends APDUs and continues with the answers.
JavaScript strings are lists of bytes, one per character; only characters of the ASCII range matter. Texts of error
messages are left out. What the library takes from its environment is a parameter: `Number`, BLAKE2b, SHA-256 and
base58. `Transport.send` is that of the package hw-transport, which is not part of the repository: it refuses data of
256 bytes or more, sends the five bytes of the header and the data, and fails with the status word if this is not one
of the accepted ones.
-/
namespace Tezos

/-! ### Environment -/

/-- The functions the library takes from its environment. -/
structure Js where
  /-- `Number` of a text, `none` for `NaN`. Only whole numbers are covered. -/
  number : Bytes → Option Int
  /-- `blake2b` of hash-wasm, with the size of the hash in bytes. -/
  blake2b : Nat → Bytes → Bytes
  /-- `createHash('sha256')` of Node. -/
  sha256 : Bytes → Bytes
  /-- `bs58.encode`. -/
  bs58 : Bytes → Bytes

/-- A call of the library: it is done, or sends an APDU of class 0x80 and continues with the answer. -/
inductive Client (ρ : Type) where
  | done (r : ρ)
  | send (ins p1 p2 : UInt8) (data : Bytes) (next : Bytes → Client ρ)

/-- `then` on a promise. -/
def Client.bind {ρ σ : Type} (c : Client ρ) (f : ρ → Client σ) : Client σ :=
  match c with
  | .done r => f r
  | .send ins p1 p2 data next => .send ins p1 p2 data fun a => (next a).bind f

/-- `slice(0, -2)`: all but the last two bytes. -/
def dropStatus (r : Bytes) : Bytes := r.take (r.length - 2)

/-- The status word at the end of an answer (js/src/index.ts 53-54 and alike). -/
def statusOf (r : Bytes) : Nat := (r.getD (r.length - 2) 0).toNat * 256 + (r.getD (r.length - 1) 0).toNat

/-- What `Transport.send` gives: an answer with one of the accepted status words, or an error, of which
`processErrorResponse` (js/src/common.ts 127-151) keeps the code. -/
inductive Answer where
  | data (r : Bytes)
  | error (code : Nat)

/-- `Transport.send` of hw-transport. -/
def transport (ins p1 p2 : UInt8) (data : Bytes) (accepted : List Nat := [0x9000]) : Client Answer :=
  if 256 ≤ data.length then .done (.error 0xffff)
  else .send ins p1 p2 data fun r =>
    .done (if r.length < 2 then .error 0xffff else if statusOf r ∈ accepted then .data r else .error (statusOf r))

/-- The object a call returns: the return code, and the other fields if it has them. -/
structure Response (α : Type) where
  returnCode : Nat
  body : Option α
  deriving DecidableEq, Repr

/-- `.then(process, processErrorResponse)`. -/
def Client.process {α : Type} (c : Client Answer) (f : Bytes → Option α) : Client (Response α) :=
  c.bind fun
    | .data r => .done ⟨statusOf r, f r⟩
    | .error e => .done ⟨e, none⟩

/-! ### Paths -/

/-- `split('/')`: the pieces between the occurrences of a character. -/
def splitOn (sep : UInt8) : Bytes → List Bytes
  | [] => [[]]
  | c :: cs => if c = sep then [] :: splitOn sep cs else
    match splitOn sep cs with
    | [] => [[c]]
    | p :: ps => (c :: p) :: ps

/-- js/src/helper.ts 17-38: one child of a path. `writeUInt32BE` throws outside its range. -/
def childNumber (js : Js) (child : Bytes) : Option UInt32 :=
  let hardened := child.getLast? = some 0x27
  let child := if hardened then child.dropLast else child
  match js.number child with
  | none => none
  | some n =>
    if 0x80000000 ≤ n then none else
    let value := if hardened then 0x80000000 + n else n
    if 0 ≤ value ∧ value ≤ 0xffffffff then some (UInt32.ofNat value.toNat) else none

/-- js/src/helper.ts 3-41: `serializePath`; `none` when it throws. -/
def serializePath (js : Js) (path : Bytes) : Option Bytes :=
  if path.head? ≠ some 0x6d then none else
  let pieces := splitOn 0x2f path
  if pieces.length ≠ 5 ∧ pieces.length ≠ 3 then none else do
  let cs ← (pieces.drop 1).mapM (childNumber js)
  return UInt8.ofNat (pieces.length - 1) :: cs.flatMap be32

/-! ### Signing -/

/-- js/src/common.ts 4: `CHUNK_SIZE`. -/
def chunkSize : Nat := 250

/-- js/src/index.ts 131-152: `prepareChunks`, with a path. -/
def prepareChunks (message path : Bytes) : List Bytes :=
  path :: (List.range ((message.length + (chunkSize - 1)) / chunkSize)).map fun k => slice message (chunkSize * k) chunkSize

/-- The fixed arguments of `signSendChunk` in a call: the instruction, `legacy`, `with_hash` and the curve. -/
structure SignCall where
  ins : UInt8
  legacy : Bool
  withHash : Bool
  curve : UInt8

/-- The hash and the signature. -/
abbrev SignResponse := Response (Bytes × Bytes)

/-- js/src/index.ts 255-271: the first parameter of a chunk. -/
def SignCall.p1 (c : SignCall) (idx num : Nat) : UInt8 :=
  let payloadType : UInt8 := if idx = 1 then 0x00 else 0x01
  if idx = num then (if c.legacy then payloadType ||| 0x80 else 0x02) else payloadType

/-- js/src/index.ts 280-315: the answer to a chunk. -/
def SignCall.readAnswer (c : SignCall) (r : Bytes) : Option (Bytes × Bytes) :=
  if statusOf r = 0x9000 ∧ 2 < r.length then
    if c.withHash then some (r.take 32, (dropStatus r).drop 32) else some (List.replicate 32 0, r.take 32)
  else none

/-- js/src/index.ts 246-316: `signSendChunk`. -/
def SignCall.sendChunk (c : SignCall) (idx num : Nat) (chunk : Bytes) : Client SignResponse :=
  (transport c.ins (c.p1 idx num) (if idx = 1 then c.curve else 0) chunk [0x9000, 0x6984, 0x6a80, 0x6f01]).process
    c.readAnswer

/-- js/src/index.ts 368-374 and alike: the loop over the chunks after the first, from index `i`, with the result so
far. -/
def SignCall.sendRest (c : SignCall) (num : Nat) : Nat → List Bytes → SignResponse → Client SignResponse
  | _, [], result => .done result
  | i, chunk :: chunks, _ =>
    (c.sendChunk (1 + i) num chunk).bind fun result =>
      if result.returnCode ≠ 0x9000 then .done result else c.sendRest num (i + 1) chunks result

/-- js/src/index.ts 361-377 and alike: sending all chunks. The answer to the first one is only kept in the initial
result. There is always a first chunk. -/
def SignCall.sendAll (c : SignCall) : List Bytes → Client SignResponse
  | [] => .done ⟨0xffff, none⟩
  | chunk :: chunks =>
    (c.sendChunk 1 (1 + chunks.length) chunk).bind fun response =>
      c.sendRest (1 + chunks.length) 1 chunks ⟨response.returnCode, none⟩

/-- js/src/index.ts 154-156 (`signGetChunks`) and 361-377 and alike. An exception of `serializePath` becomes a result
here. -/
def SignCall.sign (js : Js) (c : SignCall) (path message : Bytes) : Client SignResponse :=
  match serializePath js path with
  | none => .done ⟨0xffff, none⟩
  | some p => c.sendAll (prepareChunks message p)

/-- js/src/index.ts 380-401: `signOperation`. -/
def signOperation (js : Js) (path : Bytes) (curve : UInt8) (message : Bytes) : Client SignResponse :=
  SignCall.sign js ⟨0x12, false, true, curve⟩ path (3 :: message)

/-- js/src/index.ts 403-424: `signMichelson`. -/
def signMichelson (js : Js) (path : Bytes) (curve : UInt8) (message : Bytes) : Client SignResponse :=
  SignCall.sign js ⟨0x12, false, true, curve⟩ path (5 :: message)

/-- The message types of js/src/index.ts 318. -/
inductive BakerMessage where
  | blocklevel | endorsement | delegation
  deriving DecidableEq, Repr

/-- js/src/index.ts 321-358: the byte put in front of a message for the baker; `none` when it throws. -/
def BakerMessage.magic (t : BakerMessage) (message : Bytes) : Option UInt8 :=
  match t with
  | .blocklevel =>
    match (message[4 + 4 + 1 + 32 + 8 + 1 + 32 + 4 + 4]? : Option UInt8) with
    | some 0 => some 0x01
    | some 1 => some 0x01
    | some 2 => some 0x11
    | _ => none
  | .endorsement =>
    match (message[4 + 32]? : Option UInt8) with
    | some 20 => some 0x12
    | some 21 => some 0x13
    | _ => some 0x02
  | .delegation => some 3

/-- js/src/index.ts 318-378: `signBaker`; `none` when it throws before anything is sent. -/
def signBaker (js : Js) (path : Bytes) (curve : UInt8) (message : Bytes) (t : BakerMessage) :
    Option (Client SignResponse) :=
  (t.magic message).map fun magic => SignCall.sign js ⟨0xaf, false, true, curve⟩ path (magic :: message)

/-- The message types of js/src/index.ts 426 and 660. -/
inductive LegacyMessage where
  | blocklevel | endorsement | operation | michelson
  deriving DecidableEq, Repr

/-- js/src/index.ts 427-443, 664-680, 710-726: the byte put in front of a message. -/
def LegacyMessage.magic : LegacyMessage → UInt8
  | .blocklevel => 1
  | .endorsement => 2
  | .operation => 3
  | .michelson => 5

/-- js/src/index.ts 656-700: `legacySignWithHash`. -/
def legacySignWithHash (js : Js) (path : Bytes) (curve : UInt8) (message : Bytes) (t : LegacyMessage) :
    Client SignResponse :=
  SignCall.sign js ⟨0x0f, true, true, curve⟩ path (t.magic :: message)

/-- js/src/index.ts 702-746: `legacySign`. -/
def legacySign (js : Js) (path : Bytes) (curve : UInt8) (message : Bytes) (t : LegacyMessage) : Client SignResponse :=
  SignCall.sign js ⟨0x04, true, false, curve⟩ path (t.magic :: message)

/-- js/src/index.ts 426-449: `sig_hash`. -/
def sigHash (js : Js) (message : Bytes) (t : LegacyMessage) : Bytes := js.blake2b 32 (t.magic :: message)

/-! ### Other calls -/

/-- js/src/common.ts 153-176: `getVersion`. The target is a signed number in JavaScript. -/
structure VersionBody where
  testMode : Bool
  major : UInt8
  minor : UInt8
  patch : UInt8
  deviceLocked : Bool
  targetId : Int
  deriving DecidableEq, Repr

/-- The value of `(a << 24) + (b << 16) + (c << 8) + (d << 0)`: the first term wraps to a signed number. -/
def jsTarget (a b c d : UInt8) : Int :=
  (if a.toNat < 128 then (a.toNat : Int) else a.toNat - 256) * 0x1000000 + b.toNat * 0x10000 + c.toNat * 0x100 + d.toNat

/-- js/src/common.ts 153-176: `getVersion`. -/
def getVersion : Client (Response VersionBody) :=
  (transport 0x10 0 0 []).process fun r => some
    { testMode := r.getD 0 0 ≠ 0, major := r.getD 1 0, minor := r.getD 2 0, patch := r.getD 3 0,
      deviceLocked := r.getD 4 0 = 1,
      targetId := if 9 ≤ r.length then jsTarget (r.getD 5 0) (r.getD 6 0) (r.getD 7 0) (r.getD 8 0) else 0 }

/-- js/src/index.ts 50-71: `processGetAddrResponse`: public key and address. -/
def readAddress (r : Bytes) : Bytes × Bytes :=
  let n := (r.getD 0 0).toNat
  (slice r 1 n, dropStatus (r.drop (1 + n)))

/-- js/src/index.ts 211-223: `getAddressAndPubKey` and `showAddressAndPubKey`; `none` when it throws. -/
def getAddress (js : Js) (shown : Bool) (path : Bytes) (curve : UInt8) : Option (Client (Response (Bytes × Bytes))) :=
  (serializePath js path).map fun p =>
    (transport 0x11 (if shown then 1 else 0) curve p).process fun r => some (readAddress r)

/-- js/src/index.ts 73-88 and 225-230: `authorizeBaking`, returning the public key. -/
def authorizeBaking (js : Js) (path : Bytes) (curve : UInt8) : Option (Client (Response Bytes)) :=
  (serializePath js path).map fun p =>
    (transport 0xa1 1 curve p).process fun r => some (slice r 1 (r.getD 0 0).toNat)

/-- js/src/index.ts 90-100 and 232-236: `deauthorizeBaking`. -/
def deauthorizeBaking : Client (Response Unit) := (transport 0xac 1 0 []).process fun _ => some ()

/-- js/src/index.ts 102-119 and 238-244: `queryAuthKeyWithCurve`, returning the curve and the components of the path. -/
def queryAuthKey (confirm : Bool) : Client (Response (UInt8 × Bytes)) :=
  (transport 0xad (if confirm then 1 else 0) 0 []).process fun r => some (r.getD 0 0, slice r 2 (4 * (r.getD 1 0).toNat))

/-- js/src/index.ts 452-466: `legacyGetVersion`: whether it is the baking app, and the version. -/
def legacyGetVersion : Client (Response (Bool × UInt8 × UInt8 × UInt8)) :=
  (transport 0x00 0 0 []).process fun r => some (r.getD 0 0 = 1, r.getD 1 0, r.getD 2 0, r.getD 3 0)

/-- js/src/index.ts 468-479: `legacyGetGit`. -/
def legacyGetGit : Client (Response Bytes) := (transport 0x09 0 0 []).process fun r => some (dropStatus r)

/-- js/src/index.ts 481-494: `legacyResetHighWatermark`; `writeInt32BE` throws outside its range. -/
def legacyResetHighWatermark (level : Int) : Option (Client (Response Unit)) :=
  if -0x80000000 ≤ level ∧ level ≤ 0x7fffffff then
    some ((transport 0x06 0 0 (be32 (UInt32.ofNat (level % 0x100000000).toNat))).process fun _ => some ())
  else none

/-- js/src/index.ts 496-511: `legacyGetHighWatermark`; no body when `readUInt32BE` throws. -/
def legacyGetHighWatermark : Client (Response UInt32) :=
  (transport 0x08 0 0 []).process fun r => if 6 ≤ r.length then some (u32OfBe (r.take 4)) else none

/-- js/src/index.ts 513-530: `legacyGetAllWatermark`: main, test and chain id; no body when `readUInt32BE` throws. -/
def legacyGetAllWatermark : Client (Response (UInt32 × UInt32 × UInt32)) :=
  (transport 0x0b 0 0 []).process fun r =>
    if 14 ≤ r.length then some (u32OfBe (slice r 0 4), u32OfBe (slice r 4 4), u32OfBe (slice r 8 4)) else none

/-- js/src/index.ts 557-571: `legacyHMAC`. -/
def legacyHmac (js : Js) (path : Bytes) (curve : UInt8) (message : Bytes) : Option (Client (Response Bytes)) :=
  (serializePath js path).map fun p => (transport 0x0e 0 curve (p ++ message)).process fun r => some (dropStatus r)

/-- js/src/index.ts 609-654: `publicKeyToAddress`: the address, and the bytes of the given buffer afterwards, which
`writeUInt8` changes because `slice` shares them; `none` when it throws. -/
def publicKeyToAddress (js : Js) (key : Bytes) (curve : UInt8) : Option (Bytes × Bytes) :=
  let address (pfx key : Bytes) :=
    let hash := js.blake2b 20 key
    js.bs58 (pfx ++ hash ++ (js.sha256 (js.sha256 (pfx ++ hash))).take 4)
  if curve = 0 ∨ curve = 3 then some (address [6, 161, 159] (key.drop 1), key)
  else if curve = 1 ∨ curve = 2 then
    match key[64]? with
    | none => none
    | some last =>
      let key := (0x02 + (last &&& 0x01)) :: key.drop 1
      some (address (if curve = 1 then [6, 161, 161] else [6, 161, 164]) (key.take 33), key)
  else none

/-- js/src/index.ts 532-555, 573-607: what the legacy calls make of an answer with a public key: the public key and the
address. -/
def readLegacyKey (js : Js) (curve : UInt8) (r : Bytes) : Option (Bytes × Bytes) :=
  (publicKeyToAddress js (dropStatus r) curve).map fun x => (x.2, x.1)

/-- js/src/index.ts 573-607: `legacyGetPubKey` and `legacyPromptPubKey`; no body when `publicKeyToAddress` throws. -/
def legacyPubKey (js : Js) (prompt : Bool) (path : Bytes) (curve : UInt8) :
    Option (Client (Response (Bytes × Bytes))) :=
  (serializePath js path).map fun p =>
    (transport (if prompt then 0x03 else 0x02) 0 curve p).process (readLegacyKey js curve)

/-- js/src/index.ts 532-555: `legacySetup`. The levels and the chain id are numbers in the range of `writeUInt32BE`. -/
def legacySetup (js : Js) (path : Bytes) (curve : UInt8) (main test chain : UInt32) :
    Option (Client (Response (Bytes × Bytes))) :=
  (serializePath js path).map fun p =>
    (transport 0x0a 0 curve (be32 chain ++ be32 main ++ be32 test ++ p)).process (readLegacyKey js curve)

end Tezos
