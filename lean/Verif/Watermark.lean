import Verif.Bip32
/-
High watermark, chain id and authorized key records: rust/app/src/handlers/hwm.rs,
rust/app/src/handlers/baking.rs 48-122.
-/
namespace Tezos

/-- Zero padding up to the 52 bytes of a flash slot payload. -/
def pad52 (bs : Bytes) : Bytes := bs ++ List.replicate (52 - bs.length) 0

theorem pad52_length {bs : Bytes} (h : bs.length ≤ 52) : (pad52 bs).length = 52 := by
  simp [pad52]; omega

/-- rust/app/src/handlers/hwm.rs 165-178: `WaterMark`. -/
inductive WaterMark where
  | emmy (level : UInt32) (hadEndorsement : Bool)
  | tenderbake (level : UInt32) (hadEndorsement : Bool) (round : UInt32) (hadPreendorsement : Bool)
  deriving DecidableEq, Repr

/-- rust/app/src/handlers/hwm.rs 187-191: `level`. -/
def WaterMark.level : WaterMark → UInt32
  | .emmy l _ => l
  | .tenderbake l _ _ _ => l

/-- rust/app/src/handlers/hwm.rs 288-302: `reset`. -/
def WaterMark.reset (level : UInt32) (tenderbake : Bool) : WaterMark :=
  if tenderbake then .tenderbake level false 0 false else .emmy level false

/-- rust/app/src/handlers/hwm.rs 311-315: `Default`. -/
def WaterMark.default : WaterMark := WaterMark.reset 0xFFFFFFFF false

/-- `bool as u8`. -/
def boolByte (b : Bool) : UInt8 := if b then 1 else 0

/-- rust/app/src/handlers/hwm.rs 243-285: `From<WaterMark> for [u8; 52]`. -/
def WaterMark.encode : WaterMark → Bytes
  | .emmy level e => pad52 ([0, boolByte e] ++ be32 level)
  | .tenderbake level e round p =>
    pad52 ([1, boolByte e] ++ be32 level ++ [boolByte p] ++ be32 round)

/-- rust/app/src/handlers/hwm.rs 194-241: `From<&[u8; 52]> for WaterMark`. The argument always has 52
bytes, so every index is in range. -/
def WaterMark.decode (b : Bytes) : WaterMark :=
  let ty := b.getD 0 0
  if ty ≠ 0 ∧ ty ≠ 1 then WaterMark.default
  else
    let e := decide (b.getD 1 0 ≥ 1)
    let level := u32OfBe (slice b 2 4)
    if ty = 1 then
      let p := decide (b.getD 6 0 ≥ 1)
      let round := u32OfBe (slice b 7 4)
      .tenderbake level e round p
    else .emmy level e

/-- rust/app/src/handlers/hwm.rs 304-308: `is_valid_blocklevel`, `level.leading_zeros() > 0`, i.e. the
top bit of the 32 bits is clear. -/
def isValidBlockLevel (level : UInt32) : Bool := decide (level.toNat < 2 ^ 31)

/-- rust/app/src/handlers/hwm.rs 35: `MAINNET_CHAIN_ID`. -/
def mainnetChainId : UInt32 := 0x7A06A770

/-- rust/app/src/handlers/hwm.rs 317-322: `ChainID`. -/
inductive ChainID where
  | any | mainnet | custom (id : UInt32)
  deriving DecidableEq, Repr

/-- rust/app/src/handlers/hwm.rs 344-352: `From<u32> for ChainID`. -/
def ChainID.ofU32 (n : UInt32) : ChainID :=
  if n = 0 then .any else if n = mainnetChainId then .mainnet else .custom n

/-- rust/app/src/handlers/hwm.rs 354-362: `From<ChainID> for u32`. -/
def ChainID.toU32 : ChainID → UInt32
  | .any => 0
  | .mainnet => mainnetChainId
  | .custom n => n

/-- rust/app/src/handlers/hwm.rs 333-342 and 83-88: storage form of a chain id. -/
def chainIdEncode (id : UInt32) : Bytes := pad52 (be32 id)

/-- rust/app/src/handlers/hwm.rs 90-96 and 324-331: reading a chain id back. -/
def chainIdDecode (b : Bytes) : UInt32 := u32OfBe (b.take 4)

/-- rust/app/src/handlers/baking.rs 62-65: `Bip32PathAndCurve`. -/
structure PathAndCurve where
  curve : Curve
  path : Path
  deriving DecidableEq, Repr

/-- rust/app/src/constants.rs 98: `BIP32_MAX_LENGTH`. -/
def bip32MaxLength : Nat := 10

/-- rust/app/src/handlers/baking.rs 104-122: `From<Bip32PathAndCurve> for [u8; 52]`. A path has at most
10 components, so all of them fit the 12 four byte chunks of `out[3..]`. -/
def PathAndCurve.encode (k : PathAndCurve) : Bytes :=
  pad52 ([42, k.curve.toByte, UInt8.ofNat k.path.length] ++ k.path.flatMap be32)

/-- rust/app/src/handlers/baking.rs 99-101: `empty`. -/
def PathAndCurve.empty : Bytes := List.replicate 52 0

/-- rust/app/src/handlers/baking.rs 73-94: `try_from_bytes`. -/
def PathAndCurve.tryFromBytes (b : Bytes) : Except ApduError (Option PathAndCurve) :=
  if b.getD 0 0 = 0 then .ok none else
  match Curve.ofByte (b.getD 1 0) with
  | none => .error .dataInvalid
  | some curve =>
    let n := (b.getD 2 0).toNat
    if n > bip32MaxLength then .error .wrongLength else
    match Path.read bip32MaxLength (slice b 2 (1 + 4 * n)) with
    | .error _ => .error .dataInvalid
    | .ok path => .ok (some ⟨curve, path⟩)

/-! ### Round trips -/

@[simp] theorem boolByte_ge (b : Bool) : decide (boolByte b ≥ 1) = b := by cases b <;> rfl

theorem WaterMark.encode_length (w : WaterMark) : w.encode.length = 52 := by
  cases w with
  | emmy l e => exact pad52_length (bs := [0, boolByte e] ++ be32 l) (by simp)
  | tenderbake l e r p =>
    exact pad52_length (bs := [1, boolByte e] ++ be32 l ++ [boolByte p] ++ be32 r) (by simp)

theorem slice_append_mid {a m c : Bytes} {off len : Nat} (ho : a.length = off) (hl : m.length = len) :
    slice (a ++ m ++ c) off len = m := by
  subst ho; subst hl
  simp [slice]

theorem WaterMark.decode_encode (w : WaterMark) : WaterMark.decode w.encode = w := by
  cases w with
  | emmy level e =>
    have h1 : slice (WaterMark.encode (.emmy level e)) 2 4 = be32 level := by
      unfold WaterMark.encode pad52
      exact slice_append_mid (a := [0, boolByte e]) rfl (by simp)
    unfold WaterMark.decode
    rw [h1]
    simp [WaterMark.encode, pad52]
  | tenderbake level e round p =>
    have h1 : slice (WaterMark.encode (.tenderbake level e round p)) 2 4 = be32 level := by
      unfold WaterMark.encode pad52
      have := slice_append_mid (a := [1, boolByte e]) (m := be32 level)
        (c := [boolByte p] ++ be32 round ++
          List.replicate (52 - ([1, boolByte e] ++ be32 level ++ [boolByte p] ++ be32 round).length) 0)
        (off := 2) (len := 4) rfl (by simp)
      simpa [List.append_assoc] using this
    have h2 : slice (WaterMark.encode (.tenderbake level e round p)) 7 4 = be32 round := by
      unfold WaterMark.encode pad52
      exact slice_append_mid (a := [1, boolByte e] ++ be32 level ++ [boolByte p]) (by simp) (by simp)
    have h3 : (WaterMark.encode (.tenderbake level e round p)).getD 6 0 = boolByte p := by
      unfold WaterMark.encode pad52
      have : ([1, boolByte e] ++ be32 level).length = 6 := by simp
      simp [List.getD_eq_getElem?_getD]
    unfold WaterMark.decode
    rw [h1, h2, h3]
    simp [WaterMark.encode, pad52]

@[simp] theorem ChainID.ofU32_toU32 (n : UInt32) : (ChainID.ofU32 n).toU32 = n := by
  unfold ChainID.ofU32
  split
  · simp_all [ChainID.toU32]
  · split <;> simp_all [ChainID.toU32]

theorem chainId_length (n : UInt32) : (chainIdEncode n).length = 52 := pad52_length (by simp)

theorem chainIdDecode_encode (n : UInt32) : chainIdDecode (chainIdEncode n) = n := by
  unfold chainIdDecode chainIdEncode pad52
  rw [List.take_append_of_le_length (by simp), List.take_of_length_le (by simp), u32OfBe_be32]

theorem PathAndCurve.encode_length {k : PathAndCurve} (h : k.path.length ≤ 10) :
    k.encode.length = 52 := by
  apply pad52_length
  simp only [List.length_append, List.length_cons, List.length_nil, flatMap_be32_length]
  omega

theorem PathAndCurve.tryFromBytes_encode {k : PathAndCurve} (h1 : 1 ≤ k.path.length)
    (h2 : k.path.length ≤ 10) : PathAndCurve.tryFromBytes k.encode = .ok (some k) := by
  have hn : (UInt8.ofNat k.path.length).toNat = k.path.length := by
    simp only [UInt8.toNat_ofNat']; omega
  have hs : slice k.encode 2 (1 + 4 * k.path.length)
      = UInt8.ofNat k.path.length :: k.path.flatMap be32 := by
    unfold PathAndCurve.encode pad52
    have := slice_append_mid (a := [42, k.curve.toByte])
      (m := UInt8.ofNat k.path.length :: k.path.flatMap be32)
      (c := List.replicate (52 - ([42, k.curve.toByte, UInt8.ofNat k.path.length] ++
          k.path.flatMap be32).length) 0)
      (off := 2) (len := 1 + 4 * k.path.length) rfl
      (by simp only [List.length_cons, flatMap_be32_length]; omega)
    simpa using this
  unfold PathAndCurve.tryFromBytes
  have g0 : k.encode.getD 0 0 = 42 := rfl
  have g1 : k.encode.getD 1 0 = k.curve.toByte := rfl
  have g2 : k.encode.getD 2 0 = UInt8.ofNat k.path.length := rfl
  rw [g0, g1, g2]
  simp only [hn, Curve.ofByte_toByte]
  rw [if_neg (by decide), if_neg (by simp [bip32MaxLength]; omega), hs]
  have hr : Path.read bip32MaxLength (UInt8.ofNat k.path.length :: k.path.flatMap be32)
      = .ok k.path := Path.read_ok.mpr ⟨h1, by simp [bip32MaxLength]; omega, by omega, rfl⟩
  rw [hr]

theorem PathAndCurve.tryFromBytes_empty :
    PathAndCurve.tryFromBytes PathAndCurve.empty = .ok none := rfl

/-- A stored key always has between 1 and 10 components. -/
theorem PathAndCurve.tryFromBytes_some {b : Bytes} {k : PathAndCurve}
    (h : PathAndCurve.tryFromBytes b = .ok (some k)) : 1 ≤ k.path.length ∧ k.path.length ≤ 10 := by
  unfold PathAndCurve.tryFromBytes at h
  split at h; · simp at h
  split at h; · simp at h
  simp only at h
  split at h; · simp at h
  split at h; · simp at h
  rename_i hr
  simp only [Except.ok.injEq, Option.some.injEq] at h
  subst h
  have := Path.read_ok.mp hr
  exact ⟨this.1, this.2.1⟩

end Tezos
