import Verif.Crypto
/- The keys of the device: what the app and its bindings to the operating system (rust/app/src/crypto.rs,
rust/bolos-impl/src/crypto.rs and rust/bolos-impl/src/crypto/ecfp256.rs) ask the system for. The system calls are
parameters. `none` is an error of the system; its code is left out here (the callers drop it), but see `SysError`. -/
namespace Tezos

/-- rust/bolos-impl/src/crypto.rs 37-77: `Curve`, the curves of the system. -/
inductive SysCurve where
  | none
  | secp256K1 | secp256R1 | secp384R1 | secp521R1
  | brainPoolP256T1 | brainPoolP256R1 | brainPoolP320T1 | brainPoolP320R1
  | brainPoolP384T1 | brainPoolP384R1 | brainPoolP512T1 | brainPoolP512R1
  | nistp256 | nistp384 | nistp521
  | frp256V1 | stark256 | bls12_381G1 | ed25519 | ed448 | curve25519 | curve448
  deriving DecidableEq, Repr

/-- rust/bolos-impl/src/crypto.rs 79-109: `TryFrom<u8> for Curve`, with the values of
rust/bolos-sys/src/bindings/bindingsS.rs 1903-1951. -/
def SysCurve.ofByte (b : UInt8) : Option SysCurve :=
  match b.toNat with
  | 0 => some .none
  | 33 => some .secp256K1
  | 34 => some .secp256R1
  | 35 => some .secp384R1
  | 36 => some .secp521R1
  | 49 => some .brainPoolP256T1
  | 50 => some .brainPoolP256R1
  | 51 => some .brainPoolP320T1
  | 52 => some .brainPoolP320R1
  | 53 => some .brainPoolP384T1
  | 54 => some .brainPoolP384R1
  | 55 => some .brainPoolP512T1
  | 56 => some .brainPoolP512R1
  | 65 => some .frp256V1
  | 81 => some .stark256
  | 57 => some .bls12_381G1
  | 113 => some .ed25519
  | 114 => some .ed448
  | 129 => some .curve25519
  | 130 => some .curve448
  | _ => Option.none

/-- rust/bolos-impl/src/crypto.rs 111-137: `Into<u8> for Curve`. -/
def SysCurve.toByte : SysCurve → UInt8
  | .none => 0
  | .secp256K1 => 33
  | .secp256R1 | .nistp256 => 34
  | .secp384R1 | .nistp384 => 35
  | .secp521R1 | .nistp521 => 36
  | .brainPoolP256T1 => 49
  | .brainPoolP256R1 => 50
  | .brainPoolP320T1 => 51
  | .brainPoolP320R1 => 52
  | .brainPoolP384T1 => 53
  | .brainPoolP384R1 => 54
  | .brainPoolP512T1 => 55
  | .brainPoolP512R1 => 56
  | .frp256V1 => 65
  | .stark256 => 81
  | .bls12_381G1 => 57
  | .ed25519 => 113
  | .ed448 => 114
  | .curve25519 => 129
  | .curve448 => 114

/-- rust/bolos-impl/src/crypto.rs 140-162: `is_weirstrass`. -/
def SysCurve.isWeierstrass : SysCurve → Bool
  | .none | .ed25519 | .ed448 | .curve25519 | .curve448 => false
  | _ => true

/-- rust/bolos-impl/src/crypto.rs 164-169: `is_twisted_edward`. -/
def SysCurve.isTwistedEdwards : SysCurve → Bool
  | .ed25519 | .ed448 => true
  | _ => false

/-- rust/bolos-impl/src/crypto.rs 178-196: `domain_length`. -/
def SysCurve.domainLength : SysCurve → Option Nat
  | .none | .stark256 | .bls12_381G1 => Option.none
  | .secp256K1 | .secp256R1 | .nistp256 => some 32
  | .secp384R1 | .nistp384 => some 48
  | .secp521R1 | .nistp521 => some 66
  | .brainPoolP256T1 | .brainPoolP256R1 => some 32
  | .brainPoolP320T1 | .brainPoolP320R1 => some 40
  | .brainPoolP384T1 | .brainPoolP384R1 => some 48
  | .brainPoolP512T1 | .brainPoolP512R1 => some 64
  | .frp256V1 => some 32
  | .ed25519 => some 32
  | .ed448 => some 57
  | .curve25519 => some 32
  | .curve448 => some 56

/-- rust/bolos-impl/src/crypto.rs 204-209: `Mode`, of the Nano S. -/
inductive Mode where
  | bip32 | ed25519Slip10 | slip21
  deriving DecidableEq, Repr

/-- rust/bolos-impl/src/crypto.rs 211-223: `TryFrom<u8> for Mode`. -/
def Mode.ofByte (b : UInt8) : Option Mode :=
  if b = 0 then some .bip32 else if b = 1 then some .ed25519Slip10 else if b = 2 then some .slip21 else none

/-- rust/bolos-impl/src/crypto.rs 225-236: `Into<u8> for Mode`. -/
def Mode.toByte : Mode → UInt8
  | .bip32 => 0
  | .ed25519Slip10 => 1
  | .slip21 => 2

/-- rust/app/src/crypto.rs 119-127: `From<Curve> for sys::crypto::Curve`. -/
def Curve.toSys : Curve → SysCurve
  | .ed25519 | .bip32Ed25519 => .ed25519
  | .secp256k1 => .secp256K1
  | .secp256r1 => .secp256R1

/-- rust/app/src/crypto.rs 129-144: `TryFrom<sys::crypto::Curve> for Curve`. -/
def Curve.ofSys : SysCurve → Option Curve
  | .ed25519 => some .bip32Ed25519
  | .secp256K1 => some .secp256k1
  | .secp256R1 => some .secp256r1
  | _ => none

/-- rust/bolos-impl/src/errors/exceptionsS.rs 20-92: `Error`: an exception of a system call, or an error of the
cryptographic library. -/
inductive SysError where
  | syscall (code : UInt16)
  | cx (code : UInt32)
  deriving DecidableEq, Repr

/-- rust/bolos-impl/src/errors/exceptionsS.rs 112-121: `From<u32> for Error`. -/
def SysError.ofCode (raw : UInt32) : SysError :=
  if raw = raw.toUInt16.toUInt32 then .syscall raw.toUInt16 else .cx raw

/-- rust/bolos-impl/src/errors/exceptionsS.rs 123-133: `Into<u32> for Error`. -/
def SysError.toCode : SysError → UInt32
  | .cx code => code
  | .syscall code => code.toUInt32

/-- `cx_ecfp_private_key_t`: the curve and the secret. -/
structure RawKey where
  curve : UInt8
  secret : Bytes
  deriving DecidableEq, Repr

/-- The system calls for keys and signatures. -/
structure Sys where
  /-- `os_perso_derive_node_with_seed_key`: mode, curve and path; 64 bytes. -/
  derive : UInt8 → UInt8 → Path → Option Bytes
  /-- `cx_ecfp_init_private_key`: curve and 32 bytes. -/
  initKey : UInt8 → Bytes → Option RawKey
  /-- `cx_ecfp_generate_pair` that keeps the private key: the bytes of the point, of which all are in use. -/
  publicPoint : UInt8 → RawKey → Option Bytes
  /-- `cx_edwards_compress_point`: the buffer afterwards. -/
  compress : UInt8 → Bytes → Option Bytes
  /-- `cx_ecdsa_sign` with the nonce of RFC 6979: private key, hash, data and room; the signature and `info`. -/
  ecdsa : RawKey → UInt8 → Bytes → Nat → Option (Bytes × UInt32)
  /-- `cx_eddsa_sign`: private key, hash, data and room; the signature. -/
  eddsa : RawKey → UInt8 → Bytes → Nat → Option Bytes
  /-- `cx_ecdomain_parameters_length`. -/
  domainLength : UInt8 → Option Nat

/-- rust/bolos-impl/src/crypto/ecfp256.rs 65-69: `SecretKey`, a description of a key. -/
structure SecretKey where
  mode : Mode
  curve : SysCurve
  path : Path
  deriving DecidableEq, Repr

/-- rust/app/src/crypto.rs 154-166 and 207-209: `SecretKey::new`, `to_secret`. -/
def Curve.toSecret (c : Curve) (p : Path) : SecretKey where
  mode := match c with
    | .ed25519 => .ed25519Slip10
    | _ => .bip32
  curve := c.toSys
  path := p

/-- rust/bolos-impl/src/crypto/ecfp256.rs 89-107: `generate_into`. Of the 64 bytes of the node the system takes 32. -/
def SecretKey.generate (sys : Sys) (k : SecretKey) : Option RawKey := do
  let node ← sys.derive k.mode.toByte k.curve.toByte k.path
  sys.initKey k.curve.toByte (node.take 32)

/-- rust/bolos-impl/src/crypto/ecfp256.rs 120-143, 245-286: `public_into`. -/
def SecretKey.public (sys : Sys) (k : SecretKey) : Option Bytes := do
  let raw ← k.generate sys
  sys.publicPoint k.curve.toByte raw

/-- rust/bolos-impl/src/crypto/ecfp256.rs 31-41, 59-63, 180-197: `compress` and the bytes of the key afterwards. -/
def compressKey (sys : Sys) (c : SysCurve) (w : Bytes) : Option Bytes :=
  if c = .ed25519 then (sys.compress SysCurve.ed25519.toByte w).map (·.take 33) else some w

/-- rust/app/src/handlers/public_key.rs 38-50: `GetAddress::new_key_into`. -/
def Sys.publicKey (sys : Sys) (c : Curve) (p : Path) : Option Bytes := do
  let w ← (c.toSecret p).public sys
  compressKey sys c.toSys w

/-- The room a signature may take: rust/bolos-impl/src/crypto/ecfp256.rs 310-313 and 359-362. -/
def signatureRoom (c : SysCurve) (buffer : Nat) : Nat :=
  match c.domainLength with
  | some n => 6 + 2 * (n + 1)
  | none => buffer

/-- rust/app/src/handlers/signing.rs 62: the buffer for signatures. -/
def signatureBuffer : Bytes := List.replicate 100 0

/-- Writing at the start of a buffer. -/
def written (buffer data : Bytes) : Bytes := data ++ buffer.drop data.length

/-- rust/bolos-impl/src/crypto/ecfp256.rs 288-340: `cx_ecdsa_sign`, with SHA-256 (3): the buffer, whether `info` tells
that Y is odd, and the size. -/
def SecretKey.ecdsa (sys : Sys) (k : SecretKey) (data buffer : Bytes) : Option (Bytes × Bool × Nat) := do
  let raw ← k.generate sys
  let (sig, info) ← sys.ecdsa raw 3 data (signatureRoom k.curve buffer.length)
  return (written buffer sig, info = 1, sig.length)

/-- rust/bolos-impl/src/crypto/ecfp256.rs 342-391: `cx_eddsa_sign`, with SHA-512 (5). -/
def SecretKey.eddsa (sys : Sys) (k : SecretKey) (data buffer : Bytes) : Option (Bytes × Nat) := do
  let raw ← k.generate sys
  let sig ← sys.eddsa raw 5 data (signatureRoom k.curve buffer.length)
  let n ← sys.domainLength k.curve.toByte
  return (written buffer sig, n * 2)

/-- rust/bolos-impl/src/crypto/ecfp256.rs 146-166: `SecretKey::sign`. The other kinds of curves are not reached from the
app (`todo!` in the code); they fail here. -/
def SecretKey.sign (sys : Sys) (k : SecretKey) (data buffer : Bytes) : Option (Bytes × Nat) :=
  if k.curve.isWeierstrass then do
    let (out, parity, size) ← k.ecdsa sys data buffer
    return (if parity then (match out with | [] => [] | b :: rest => (b ||| 0x01) :: rest) else out, size)
  else if k.curve.isTwistedEdwards then k.eddsa sys data buffer
  else none

/-- rust/app/src/crypto.rs 189-203 and rust/app/src/handlers/signing.rs 55-70: signing, and the bytes of the signature
taken from the buffer by the callers. The buffer has room for all curves. -/
def Sys.sign (sys : Sys) (c : Curve) (p : Path) (data : Bytes) : Option Bytes :=
  ((c.toSecret p).sign sys data signatureBuffer).map fun x => x.1.take x.2

end Tezos
