import Verif.Bytes
/-
Status words, curves and packet types.
-/
namespace Tezos

/-- rust/app/src/constants.rs 16-36: `ApduError`. -/
inductive ApduError where
  | executionError | wrongLength | emptyBuffer | outputBufferTooSmall | dataInvalid
  | conditionsNotSatisfied | commandNotAllowed | badKeyExample | invalidP1P2 | insNotSupported
  | claNotSupported | unknown | signVerifyError | success | busy
  deriving DecidableEq, Repr

/-- rust/app/src/constants.rs 20-36: the `#[repr(u16)]` discriminants. -/
def ApduError.code : ApduError → UInt16
  | executionError => 0x6400
  | wrongLength => 0x6700
  | emptyBuffer => 0x6982
  | outputBufferTooSmall => 0x6983
  | dataInvalid => 0x6984
  | conditionsNotSatisfied => 0x6985
  | commandNotAllowed => 0x6986
  | badKeyExample => 0x6A80
  | invalidP1P2 => 0x6B00
  | insNotSupported => 0x6D00
  | claNotSupported => 0x6E00
  | unknown => 0x6F00
  | signVerifyError => 0x6F01
  | success => 0x9000
  | busy => 0x9001

/-- rust/app/src/constants.rs 65-88: `TryFrom<u16> for ApduError`. -/
def ApduError.ofCode (c : UInt16) : Option ApduError :=
  if c = 0x6400 then some executionError
  else if c = 0x6700 then some wrongLength
  else if c = 0x6982 then some emptyBuffer
  else if c = 0x6983 then some outputBufferTooSmall
  else if c = 0x6984 then some dataInvalid
  else if c = 0x6985 then some conditionsNotSatisfied
  else if c = 0x6986 then some commandNotAllowed
  else if c = 0x6A80 then some badKeyExample
  else if c = 0x6B00 then some invalidP1P2
  else if c = 0x6D00 then some insNotSupported
  else if c = 0x6E00 then some claNotSupported
  else if c = 0x6F00 then some unknown
  else if c = 0x6F01 then some signVerifyError
  else if c = 0x9000 then some success
  else if c = 0x9001 then some busy
  else none

/-- rust/app/src/crypto.rs 85-92: `Curve`. -/
inductive Curve where
  | ed25519 | secp256k1 | secp256r1 | bip32Ed25519
  deriving DecidableEq, Repr

/-- rust/app/src/crypto.rs 94-106: `TryFrom<u8> for Curve`. -/
def Curve.ofByte (b : UInt8) : Option Curve :=
  if b = 0 then some .ed25519
  else if b = 1 then some .secp256k1
  else if b = 2 then some .secp256r1
  else if b = 3 then some .bip32Ed25519
  else none

/-- rust/app/src/crypto.rs 108-117: `From<Curve> for u8`. -/
def Curve.toByte : Curve → UInt8
  | .ed25519 => 0
  | .secp256k1 => 1
  | .secp256r1 => 2
  | .bip32Ed25519 => 3

@[simp] theorem Curve.ofByte_toByte (c : Curve) : Curve.ofByte c.toByte = some c := by
  cases c <;> rfl

theorem Curve.ofByte_eq_some {b : UInt8} {c : Curve} : Curve.ofByte b = some c ↔ b = c.toByte := by
  constructor
  · intro h
    unfold Curve.ofByte at h
    repeat' split at h
    all_goals simp_all [Curve.toByte]
    all_goals (subst h; rfl)
  · rintro rfl; simp

/-- rust/app/src/handlers/utils.rs 20-70: the packet types, `ZPacketType` and `LegacyPacketType`. -/
inductive PacketType where
  | zInit | zAdd | zLast
  | lInit | lAdd | lHashOnlyNext | lInitAndLast | lAddAndLast | lHashAndLast
  deriving DecidableEq, Repr

/-- rust/app/src/handlers/utils.rs 27-38: `TryFrom<u8> for ZPacketType`. -/
def PacketType.ofZ (p1 : UInt8) : Option PacketType :=
  if p1 = 0 then some .zInit
  else if p1 = 1 then some .zAdd
  else if p1 = 2 then some .zLast
  else none

/-- rust/app/src/handlers/utils.rs 56-70: `TryFrom<u8> for LegacyPacketType`. -/
def PacketType.ofLegacy (p1 : UInt8) : Option PacketType :=
  if p1 = 0 then some .lInit
  else if p1 = 1 then some .lAdd
  else if p1 = 3 then some .lHashOnlyNext
  else if p1 = 0x80 then some .lInitAndLast
  else if p1 = 0x81 then some .lAddAndLast
  else if p1 = 0x83 then some .lHashAndLast
  else none

/-- rust/app/src/handlers/utils.rs 133-135: `PacketTypes::try_either`. -/
def PacketType.tryEither (p1 : UInt8) : Option PacketType :=
  match PacketType.ofZ p1 with
  | some t => some t
  | none => PacketType.ofLegacy p1

/-- rust/app/src/handlers/utils.rs 87-90, 97-100, 138-144: `is_init`. -/
def PacketType.isInit : PacketType → Bool
  | .zInit | .lInit | .lInitAndLast => true
  | _ => false

/-- rust/app/src/handlers/utils.rs 92-94, 102-107, 146-151: `is_last`. -/
def PacketType.isLast : PacketType → Bool
  | .zLast | .lInitAndLast | .lHashAndLast | .lAddAndLast => true
  | _ => false

/-- rust/app/src/handlers/utils.rs 82-84, 153-158: `is_next`. -/
def PacketType.isNext (t : PacketType) : Bool := !t.isInit && !t.isLast

end Tezos
