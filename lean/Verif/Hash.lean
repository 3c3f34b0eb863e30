import Verif.Crypto
/- Hashes and codes of authenticity as the app computes them: the calls to the operating system one after the other,
on a context in memory (rust/bolos-impl/src/hash.rs, hash/*.rs, rust/bolos-impl/src/hmac.rs,
rust/bolos-impl/src/hmac/sha256.rs and their callers). The calls are parameters; `none` is an error of the system,
which ends the computation; its code is left out (the callers drop it). -/
namespace Tezos

/-- The hash functions of the system; BLAKE2b is set up with the number of bits of its output. -/
inductive HashId where
  | sha256 | sha512
  | blake2b (bits : UInt32)
  deriving DecidableEq, Repr

/-- The calls, on contexts of the system. -/
structure HashSys where
  /-- The memory of a context (`cx_sha256_t`, `cx_hmac_sha256_t`, ...). -/
  Ctx : Type
  /-- `cx_sha256_init_no_throw`, `cx_sha512_init_no_throw` or `cx_blake2b_init_no_throw` on some memory. -/
  init : HashId → Ctx → Option Ctx
  /-- `cx_hash_no_throw`: context, mode, input and the size of the output; the context afterwards and the output. -/
  hash : Ctx → UInt32 → Bytes → Nat → Option (Ctx × Bytes)
  /-- `cx_hmac_sha256_init_no_throw` on some memory, with the key. -/
  hmacInit : Ctx → Bytes → Option Ctx
  /-- `cx_hmac_no_throw`: context, mode, input and the size of the output; the context afterwards and the output. -/
  hmac : Ctx → UInt32 → Bytes → Nat → Option (Ctx × Bytes)

/-- rust/bolos-impl/src/hash.rs 35-62: `cx_hash`. Mode 1 asks for the output (`CX_LAST`); `room` is the length of
`out`. -/
def HashSys.cxHash (sys : HashSys) (c : sys.Ctx) (input : Bytes) (room : Option Nat) : Option (sys.Ctx × Bytes) :=
  match room with
  | some n => sys.hash c 1 input n
  | none => sys.hash c 0 input 0

/-- rust/bolos-impl/src/hash.rs 88-91: `update`. -/
def HashSys.update (sys : HashSys) (c : sys.Ctx) (input : Bytes) : Option sys.Ctx := do
  return (← sys.cxHash c input none).1

/-- rust/bolos-impl/src/hash.rs 93-98: `finalize_dirty_into`, for an output of `size` bytes. -/
def HashSys.finalizeDirty (sys : HashSys) (size : Nat) (c : sys.Ctx) : Option (sys.Ctx × Bytes) :=
  sys.cxHash c [] (some size)

/-- rust/bolos-impl/src/hash.rs 100-105: `finalize_into`, for an output of `size` bytes. -/
def HashSys.finalize (sys : HashSys) (size : Nat) (c : sys.Ctx) : Option Bytes := do
  return (← sys.cxHash c [] (some size)).2

/-- rust/bolos-impl/src/hash.rs 107-110: `reset`, which initializes the same memory again
(rust/bolos-impl/src/hash/sha256.rs 73-75). -/
def HashSys.reset (sys : HashSys) (h : HashId) (c : sys.Ctx) : Option sys.Ctx := sys.init h c

/-- rust/bolos-impl/src/hash.rs 112-125: `digest_into`, on the uninitialized memory `u`. -/
def HashSys.digest (sys : HashSys) (u : sys.Ctx) (h : HashId) (size : Nat) (input : Bytes) : Option Bytes := do
  let c ← sys.init h u
  return (← sys.cxHash c input (some size)).2

/-- rust/bolos-impl/src/hash/blake2b.rs 49-70: `Blake2b<S>::init_state` asks for `S * 8` bits. -/
def blake2bId (size : Nat) : HashId := .blake2b (UInt32.ofNat (size * 8))

/-- `Blake2b::<S>::digest`: rust/app/src/handlers/signing.rs 72-75, rust/app/src/handlers/baking.rs 128-133,
rust/app/src/parser/operations/operation_type.rs 278. -/
def HashSys.blake2bDigest (sys : HashSys) (u : sys.Ctx) (size : Nat) (input : Bytes) : Option Bytes :=
  sys.digest u (blake2bId size) size input

/-- `Sha256::digest`, an output of 32 bytes (rust/bolos-impl/src/hash.rs 166). -/
def HashSys.sha256Digest (sys : HashSys) (u : sys.Ctx) (input : Bytes) : Option Bytes := sys.digest u .sha256 32 input

/-- `Sha512::digest`, an output of 64 bytes (rust/bolos-impl/src/hash.rs 168). -/
def HashSys.sha512Digest (sys : HashSys) (u : sys.Ctx) (input : Bytes) : Option Bytes := sys.digest u .sha512 64 input

/-- The loop of `sha256x2`: rust/app/src/handlers/utils.rs 178-180. -/
def HashSys.updates (sys : HashSys) (c : sys.Ctx) : List Bytes → Option sys.Ctx
  | [] => some c
  | p :: ps => do sys.updates (← sys.update c p) ps

/-- rust/app/src/handlers/utils.rs 161-197: `sha256x2`. -/
def HashSys.sha256x2 (sys : HashSys) (u : sys.Ctx) (pieces : List Bytes) : Option Bytes := do
  let c ← sys.init .sha256 u
  let c ← sys.updates c pieces
  let (c, d) ← sys.finalizeDirty 32 c
  let c ← sys.reset .sha256 c
  let c ← sys.update c d
  let d ← sys.finalize 32 c
  return d.take 4

/-- rust/app/src/crypto.rs 46-65: what `PublicKey::hash` feeds. -/
def HashSys.feedKey (sys : HashSys) (c : sys.Ctx) (curve : Curve) (key : Bytes) : Option sys.Ctx :=
  match curve with
  | .ed25519 | .bip32Ed25519 => sys.update c (key.drop 1)
  | .secp256k1 | .secp256r1 => do
    let c ← sys.update c [2 + (key.getD 64 0 &&& 1)]
    sys.update c ((key.drop 1).take 32)

/-- rust/app/src/crypto.rs 36-68: `PublicKey::hash`. -/
def HashSys.keyHash (sys : HashSys) (u : sys.Ctx) (curve : Curve) (key : Bytes) : Option Bytes := do
  let c ← sys.init (blake2bId 20) u
  let c ← sys.feedKey c curve key
  sys.finalize 20 c

/-- rust/bolos-impl/src/hmac.rs 32-65: `cx_hmac` with `reinit` off: mode 32768 is `CX_NO_REINIT`, 1 is `CX_LAST`. -/
def HashSys.cxHmac (sys : HashSys) (c : sys.Ctx) (input : Bytes) (room : Option Nat) : Option (sys.Ctx × Bytes) :=
  match room with
  | some n => sys.hmac c 32769 input n
  | none => sys.hmac c 32768 input 0

/-- rust/app/src/handlers/baking/hmac.rs 55-73: `do_hmac` after the payload is known, with `Sha256HMAC` of
rust/bolos-impl/src/hmac/sha256.rs 41-79. -/
def HashSys.doHmac (sys : HashSys) (u : sys.Ctx) (key input : Bytes) : Option Bytes := do
  let c ← sys.hmacInit u key
  let (c, _) ← sys.cxHmac c input none
  return (← sys.cxHmac c [] (some 32)).2

end Tezos
