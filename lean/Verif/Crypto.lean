import Verif.Codes
import Verif.Bip32
import Verif.Format
/-
Cryptography. The primitives are calls into the operating system of the device and are parameters here; what
the app builds from them is modelled.
-/
namespace Tezos

/-- The cryptographic system calls; `none` is an error from the system. -/
structure Crypto where
  /-- SHA-256 of a message (rust/bolos-impl/src/hash/sha256.rs). -/
  sha256 : Bytes → Option Bytes
  /-- SHA-512 of a message (rust/bolos-impl/src/hash/sha512.rs). -/
  sha512 : Bytes → Option Bytes
  /-- BLAKE2b with an output of the given number of bytes (rust/bolos-impl/src/hash/blake2b.rs). -/
  blake2b : Nat → Bytes → Option Bytes
  /-- HMAC-SHA-256 of a message under a key (rust/bolos-impl/src/hmac/sha256.rs). -/
  hmac : Bytes → Bytes → Option Bytes
  /-- The public key of a derivation path on a curve (rust/app/src/crypto.rs), in the form the app handles it:
  33 bytes for the Edwards curve, 65 for the others. -/
  publicKey : Curve → Path → Option Bytes
  /-- Signature of a 32-byte digest with the key of a path on a curve. -/
  sign : Curve → Path → Bytes → Option Bytes

/-- Sizes guaranteed by the types of the code. -/
structure Crypto.Sized (cr : Crypto) : Prop where
  sha256 : ∀ {m d}, cr.sha256 m = some d → d.length = 32
  sha512 : ∀ {m d}, cr.sha512 m = some d → d.length = 64
  blake2b : ∀ {n m d}, cr.blake2b n m = some d → d.length = n
  hmac : ∀ {k m d}, cr.hmac k m = some d → d.length = 32
  publicKey : ∀ {c p k}, cr.publicKey c p = some k →
    k.length = (match c with | .ed25519 | .bip32Ed25519 => 33 | .secp256k1 | .secp256r1 => 65)
  sign : ∀ {c p d s}, cr.sign c p d = some s → s.length ≤ 100

/-- rust/app/src/handlers/utils.rs 161-197: `sha256x2`, the first four bytes of the double hash of the
concatenated pieces. -/
def sha256x2 (cr : Crypto) (pieces : List Bytes) : Option Bytes := do
  let d1 ← cr.sha256 pieces.flatten
  let d2 ← cr.sha256 d1
  return d2.take 4

/-- rust/app/src/constants.rs 104-119: prefixes. -/
def prefixTZ1 : Bytes := [6, 161, 159]
def prefixTZ2 : Bytes := [6, 161, 161]
def prefixTZ3 : Bytes := [6, 161, 164]
def prefixKT1 : Bytes := [2, 90, 121]
def prefixEDPK : Bytes := [13, 15, 37, 217]
def prefixSPPK : Bytes := [3, 254, 226, 86]
def prefixP2PK : Bytes := [3, 178, 139, 127]
def prefixB : Bytes := [1, 52]
def prefixP : Bytes := [2, 170]
def prefixNET : Bytes := [87, 82, 0]

/-- rust/app/src/crypto.rs: `Curve::to_hash_prefix`. -/
def Curve.hashPrefix : Curve → Bytes
  | .ed25519 | .bip32Ed25519 => prefixTZ1
  | .secp256k1 => prefixTZ2
  | .secp256r1 => prefixTZ3

/-- rust/app/src/crypto.rs: `Curve::to_prefix`. -/
def Curve.keyPrefix : Curve → Bytes
  | .ed25519 | .bip32Ed25519 => prefixEDPK
  | .secp256k1 => prefixSPPK
  | .secp256r1 => prefixP2PK

/-- rust/app/src/crypto.rs 36-68: `PublicKey::hash`. -/
def keyHash (cr : Crypto) (curve : Curve) (key : Bytes) : Option Bytes :=
  match curve with
  | .ed25519 | .bip32Ed25519 => cr.blake2b 20 (key.drop 1)
  | .secp256k1 | .secp256r1 =>
    cr.blake2b 20 ((2 + (key.getD 64 0 &&& 1)) :: (key.drop 1).take 32)

/-- Prefix, payload and checksum: the bytes behind every base58 text of the app. -/
def checked (cr : Crypto) (pfx payload : Bytes) : Option Bytes := do
  let sum ← sha256x2 cr [pfx, payload]
  return pfx ++ payload ++ sum

/-- rust/app/src/handlers/public_key.rs 145-152: `Addr`, as the bytes that get encoded. -/
structure Addr where
  bytes : Bytes
  deriving DecidableEq, Repr

/-- rust/app/src/handlers/public_key.rs 240-251: `Addr::from_hash`. -/
def Addr.fromHash (cr : Crypto) (hash : Bytes) (curve : Curve) : Option Addr := do
  let b ← checked cr curve.hashPrefix hash
  return ⟨b⟩

/-- rust/app/src/handlers/public_key.rs 162-206: `Addr::new_into`. -/
def Addr.ofKey (cr : Crypto) (curve : Curve) (key : Bytes) : Option Addr := do
  let hash ← keyHash cr curve key
  Addr.fromHash cr hash curve

/-- rust/app/src/handlers/public_key.rs 214-231: `Addr::base58`. -/
def Addr.base58 (a : Addr) : Except VErr Bytes := base58Into 37 a.bytes

end Tezos
