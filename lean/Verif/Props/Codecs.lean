import Verif.Watermark
import Verif.Consensus
import Verif.Spec.Consensus
/-
C21 watermark codec, C22 authorized key codec, C23 derivation paths, C54 chain ids.
-/
namespace Tezos
open Spec

/-! ### C21 -/

/-- C21, round trip: storing a watermark and reading it back gives the same watermark, and the stored
form fills exactly one slot payload. -/
theorem C21_watermark_roundtrip (w : WaterMark) :
    WaterMark.decode w.encode = w ∧ w.encode.length = 52 :=
  ⟨w.decode_encode, w.encode_length⟩

/-- C21, unknown tags: whatever the other bytes of the slot are, a payload whose tag is neither 0 nor 1
decodes to a watermark that no Emmy item with a valid level exceeds. -/
theorem C21_unknown_tag_refuses_emmy {b : Bytes} (h : b.getD 0 0 ≠ 0 ∧ b.getD 0 0 ≠ 1) {it : Item}
    (he : it.family = 0) (hl : it.level < 2 ^ 31) : ¬ (WaterMark.decode b).item.lt it := by
  have hd : WaterMark.decode b = .emmy 0xFFFFFFFF false := by
    unfold WaterMark.decode
    simp only []
    rw [if_pos h]
    rfl
  rw [hd]
  have hi : (WaterMark.emmy 0xFFFFFFFF false).item = ⟨0, 0xFFFFFFFF, 0, 0⟩ := rfl
  rw [hi]
  simp only [Item.lt, he]
  omega

/-- Such payloads exist, for instance a slot full of 0x2A; and every watermark round-trips, e.g. -/
example : (List.replicate 52 (42 : UInt8)).getD 0 0 ≠ 0 ∧ (List.replicate 52 (42 : UInt8)).getD 0 0 ≠ 1 := by
  decide
example : WaterMark.decode (WaterMark.tenderbake 70000 true 258 false).encode
    = .tenderbake 70000 true 258 false := by decide

/-! ### C22 -/

/-- C22: a key of 1 to 10 path components survives storage; an erased slot reads as "no key". -/
theorem C22_key_roundtrip {curve : Curve} {path : Path} (h1 : 1 ≤ path.length) (h2 : path.length ≤ 10) :
    PathAndCurve.tryFromBytes (PathAndCurve.encode ⟨curve, path⟩) = .ok (some ⟨curve, path⟩) ∧
    (PathAndCurve.encode ⟨curve, path⟩).length = 52 :=
  ⟨PathAndCurve.tryFromBytes_encode h1 h2, PathAndCurve.encode_length h2⟩

/-- C22, erased slot; and any payload with a zero first byte. -/
theorem C22_erased_is_no_key {b : Bytes} (h : b.getD 0 0 = 0) :
    PathAndCurve.tryFromBytes b = .ok none ∧ PathAndCurve.empty.getD 0 0 = 0 := by
  refine ⟨?_, rfl⟩
  unfold PathAndCurve.tryFromBytes
  rw [if_pos h]

example : PathAndCurve.tryFromBytes
    (PathAndCurve.encode ⟨.secp256k1, [0x8000002C, 0x800006C1, 0x80000000, 7]⟩)
    = .ok (some ⟨.secp256k1, [0x8000002C, 0x800006C1, 0x80000000, 7]⟩) := rfl

/-! ### C23 -/

/-- C23, decoder: it accepts exactly a length byte `n` with `1 ≤ n ≤ LEN` followed by exactly `4 n` bytes
(it is a total function: it cannot abort). -/
theorem C23_decoder_accepts (LEN : Nat) (i : Bytes) :
    (∃ p, Path.read LEN i = .ok p) ↔
      ∃ n : UInt8, ∃ body : Bytes, i = n :: body ∧ 1 ≤ n.toNat ∧ n.toNat ≤ LEN ∧
        body.length = 4 * n.toNat := by
  constructor
  · rintro ⟨p, h⟩
    obtain ⟨h1, h2, h3, rfl⟩ := Path.read_ok.mp h
    refine ⟨_, _, rfl, ?_⟩
    have hn : (UInt8.ofNat p.length).toNat = p.length := by
      simp only [UInt8.toNat_ofNat']; omega
    rw [hn, flatMap_be32_length]
    omega
  · rintro ⟨n, body, rfl, h1, h2, h3⟩
    refine ⟨readComponents body, Path.read_ok.mpr ?_⟩
    have hm : body.length % 4 = 0 := by omega
    have hl := readComponents_length body hm
    have hn := n.toNat_lt
    refine ⟨by omega, by omega, by omega, ?_⟩
    rw [flatMap_readComponents body hm, hl, h3]
    simp

/-- C23, components: the `k`-th component is the big-endian number at byte offset `1 + 4 k`. -/
theorem C23_decoder_components {LEN : Nat} {i : Bytes} {p : Path} (h : Path.read LEN i = .ok p) :
    p.length = (i.getD 0 0).toNat ∧
    ∀ k (hk : k < p.length), be32 p[k] = (i.drop (1 + 4 * k)).take 4 := by
  obtain ⟨h1, h2, h3, rfl⟩ := Path.read_ok.mp h
  refine ⟨by simp only [List.getD_cons_zero, UInt8.toNat_ofNat']; omega, ?_⟩
  clear h h1 h2
  intro k hk
  generalize UInt8.ofNat p.length = n
  clear h3
  rw [show 1 + 4 * k = (4 * k) + 1 by omega, List.drop_succ_cons]
  induction p generalizing k with
  | nil => simp at hk
  | cons x xs ih =>
    cases k with
    | zero => simp
    | succ k =>
      simp only [List.flatMap_cons]
      rw [show 4 * (k + 1) = (be32 x).length + 4 * k by simp; omega, List.drop_append,
        List.drop_of_length_le (by omega)]
      simpa using ih k (by simpa using hk)

/-- C23, inverse: decoding a serialized path gives the path back, and serializing a decoded path gives
the input back. -/
theorem C23_decoder_inverse {LEN : Nat} (hL : LEN < 256) :
    (∀ p : Path, 1 ≤ p.length → p.length ≤ LEN → Path.read LEN p.serialize = .ok p) ∧
    (∀ i p, Path.read LEN i = .ok p → Path.serialize p = i) := by
  constructor
  · intro p h1 h2
    exact Path.read_ok.mpr ⟨h1, h2, by omega, rfl⟩
  · intro i p h
    obtain ⟨-, -, -, rfl⟩ := Path.read_ok.mp h
    rfl

theorem Path.newLoop_fits {LEN : Nat} {cs : List UInt32} : ∀ {i : Nat} {acc : Path},
    i + cs.length ≤ LEN → 1 ≤ i + cs.length → Path.newLoop LEN i acc cs = .ok (acc ++ cs) := by
  induction cs with
  | nil => intro i acc _ h; simp only [List.length_nil] at h; simp [Path.newLoop]; omega
  | cons c cs ih =>
    intro i acc h h1
    simp only [List.length_cons] at h h1
    unfold Path.newLoop
    rw [if_neg (by omega), if_pos (by omega), ih (by omega) (by omega)]
    simp

theorem Path.newLoop_over {LEN : Nat} {cs : List UInt32} : ∀ {i : Nat} {acc : Path},
    i ≤ LEN → LEN < i + cs.length → Path.newLoop LEN i acc cs = .panic := by
  induction cs with
  | nil => intro i acc h h1; simp at h1; omega
  | cons c cs ih =>
    intro i acc h h1
    simp only [List.length_cons] at h1
    unfold Path.newLoop
    rw [if_neg (by omega)]
    split
    · exact ih (by omega) (by omega)
    · rfl

/-- C23, constructor, the part that holds: 1 to LEN components are accepted, none is refused. -/
theorem C23_constructor_partial (LEN : Nat) (cs : List UInt32) :
    (cs = [] → Path.new LEN cs = .err .zeroLength) ∧
    (1 ≤ cs.length → cs.length ≤ LEN → Path.new LEN cs = .ok cs) := by
  constructor
  · rintro rfl; rfl
  · intro h1 h2
    have := Path.newLoop_fits (LEN := LEN) (i := 0) (acc := []) (cs := cs) (by omega) (by omega)
    simpa [Path.new] using this

/-- C23, constructor, the part that fails: more than LEN components are never answered with the error
that the function documents; it always aborts. -/
theorem C23_constructor_negation (LEN : Nat) (cs : List UInt32) (h : LEN < cs.length) :
    Path.new LEN cs = .panic :=
  Path.newLoop_over (by omega) (by omega)

example : Path.read 10 [2, 0x80, 0, 0, 44, 0, 0, 1, 2] = .ok [0x8000002C, 258] := rfl
example : (10 : Nat) < (List.replicate 11 (1 : UInt32)).length := by decide

/-! ### C54 -/

/-- C54: chain ids survive storage, and conversion to and from the tagged form; 0 is "any" and
0x7A06A770 is mainnet, and only those. -/
theorem C54_chain_id (n m : UInt32) :
    chainIdDecode (chainIdEncode n) = n ∧ (chainIdEncode n).length = 52 ∧
    (ChainID.ofU32 n).toU32 = n ∧
    (ChainID.ofU32 n = ChainID.ofU32 m ↔ n = m) ∧
    (ChainID.ofU32 n = .any ↔ n = 0) ∧ (ChainID.ofU32 n = .mainnet ↔ n = 0x7A06A770) := by
  refine ⟨chainIdDecode_encode n, chainId_length n, ChainID.ofU32_toU32 n, ?_, ?_, ?_⟩
  · constructor
    · intro h
      have := congrArg ChainID.toU32 h
      simpa using this
    · rintro rfl; rfl
  · unfold ChainID.ofU32
    split
    · simp_all
    · split <;> simp_all
  · unfold ChainID.ofU32
    split
    · rename_i h; subst h; simp
    · split
      · rename_i h; simp [h, mainnetChainId]
      · rename_i h; simp; intro h2; exact h (by rw [h2]; rfl)

end Tezos
